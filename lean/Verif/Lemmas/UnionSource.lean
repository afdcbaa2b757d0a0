import Verif.Lemmas.UnionInherit

/-!
# Scalar types that inherit from a union
-/

namespace GoRaml

open Spec

/-- The result for one member is a new type or the member itself. -/
theorem inheritClone_place {n : Nat} {h h' : St} {t s m : Addr} {ts ss : Shape} (ht : h.shapeAt t = some ts) (hs : h.shapeAt s = some ss)
    (hlt : IsLeaf ts) (hls : IsLeaf ss) (hrun : inheritClone (inherit n) t s h = (.ok m, h')) : m = s ∨ h.bases.length ≤ m := by
  unfold inheritClone at hrun
  rw [M.get_bind] at hrun
  obtain ⟨c, h1, hc, hrun1⟩ := M.bind_ok.1 hrun
  obtain ⟨i, h2, hi, hrun2⟩ := M.bind_ok.1 hrun1
  obtain ⟨u, h3, hu, hrun3⟩ := M.bind_ok.1 hrun2
  obtain ⟨hcl, hcs⟩ := clone_leaf ht hlt hc
  have kc := keepShapes_clone (h.bases.length + 1) t h
  rw [hc] at kc
  simp only [Heap.newID, Prod.mk.injEq, Out.ok.injEq] at hi
  obtain ⟨rfl, rfl⟩ := hi
  have hb3 : ∀ x, h3.base x = (h1.base x).map fun b => if c = x then { b with id := h1.idCounter + 1 } else b := by
    intro x
    simp only [Heap.updBase, Prod.mk.injEq, true_and] at hu
    rw [← hu]
    exact base_upd h1 c x _
  have hs3 : ∀ x, h3.shapeAt x = h1.shapeAt x := by
    intro x
    simp only [St.shapeAt, hb3]
    cases h1.base x with
    | none => rfl
    | some b => simp only [Option.map_some, Option.bind_some]; split <;> rfl
  obtain ⟨_, _, _, hok⟩ := inherit_scalar_step (t := ts) (s := ss) (by rw [hs3, hcs]) (by rw [hs3, kc.shapes s (lt_of_shapeAt hs), hs]) hlt hls hrun3
  rcases hok m rfl with ⟨rfl, _⟩ | ⟨rfl, _⟩
  · exact .inr (le_of_eq hcl.symm)
  · exact .inl rfl

/-- The loop over the union's members, for a scalar child: no type that existed changes, the results narrow members of the union, and only an any-typed member ends the loop early. -/
theorem unionSourceLoop_scalar {E : Ext} {n : Nat} {a : Addr} : ∀ {ss : List Addr} {h h' : St} {o : Option (List Addr)},
    ScalarMembers h [a] ss → unionSourceLoop (inherit n) a ss h = (.ok o, h') →
    KeepShapes h h' ∧ (o = none → ∃ s ∈ ss, h.shapeAt s = some .any) ∧
      ∀ l, o = some l → ∀ m ∈ l, (m ∈ ss ∨ h.bases.length ≤ m) ∧ ∃ s ∈ ss, ∃ q, h.shapeAt s = some q ∧ GoodMember E q h' m
  | [], h, h', o, _, hrun => by
    obtain ⟨rfl, rfl⟩ := M.ret_ok.1 hrun
    exact ⟨KeepShapes.refl _, by simp, by simp⟩
  | s :: ss, h, h', o, hm, hrun => by
    have hm' : ScalarMembers h [a] ss := ⟨fun x hx => hm.1 x (by simp at hx ⊢; tauto),
      fun t ht s' hs' => hm.2 t ht s' (List.mem_cons_of_mem _ hs')⟩
    obtain ⟨q, hq, hlq⟩ := hm.1 s (by simp)
    obtain ⟨p, hp, hlp⟩ := hm.1 a (by simp)
    have skip : ∀ {o : Option (List Addr)} {h1 h2 : St}, KeepShapes h h1 → unionSourceLoop (inherit n) a ss h1 = (.ok o, h2) →
        KeepShapes h h2 ∧ (o = none → ∃ x ∈ s :: ss, h.shapeAt x = some .any) ∧
          ∀ l, o = some l → ∀ m ∈ l, (m ∈ s :: ss ∨ h.bases.length ≤ m) ∧ ∃ x ∈ s :: ss, ∃ q, h.shapeAt x = some q ∧ GoodMember E q h2 m := by
      intro o h1 h2 k1 e
      obtain ⟨k2, hn, hs⟩ := unionSourceLoop_scalar (hm'.mono k1) e
      have back : ∀ x ∈ ss, h1.shapeAt x = h.shapeAt x := by
        intro x hx
        obtain ⟨y, hy, _⟩ := hm'.1 x (List.mem_append_right _ hx)
        exact k1.shapes x (lt_of_shapeAt hy)
      refine ⟨k1.trans k2, fun e => ?_, fun l hl m hmem => ?_⟩
      · obtain ⟨x, hx, hx'⟩ := hn e
        exact ⟨x, List.mem_cons_of_mem _ hx, by rw [← back x hx, hx']⟩
      · obtain ⟨hpl, x, hx, y, hy, g⟩ := hs l hl m hmem
        exact ⟨hpl.imp (List.mem_cons_of_mem _) (le_trans k1.le), x, List.mem_cons_of_mem _ hx, y, by rw [← back x hx, hy], g⟩
    unfold unionSourceLoop at hrun
    obtain ⟨mb, h1, e1, hrun1⟩ := M.bind_ok.1 hrun
    obtain ⟨hmb, rfl⟩ := getBase_ok.1 e1
    have hsq : mb.shape = some q := by simpa [St.shapeAt, hmb] using hq
    by_cases hany : q = .any
    · subst hany
      rw [hsq] at hrun1
      obtain ⟨rfl, rfl⟩ := M.ret_ok.1 hrun1
      exact ⟨KeepShapes.refl _, fun _ => ⟨s, by simp, hq⟩, by simp⟩
    · have hrun2 : (M.bind (Heap.getBase a) fun sb =>
          if mb.type = sb.type then
            M.bind (M.attempt (inheritClone (inherit n) a s)) fun r =>
            M.bind (unionSourceLoop (inherit n) a ss) fun rest =>
            match r, rest with
            | .ok c, some l => M.ret (some (c :: l))
            | .error _, some l => M.ret (some l)
            | _, none => M.ret none
          else unionSourceLoop (inherit n) a ss) h1 = (.ok o, h') := by
        rw [← hrun1, hsq]
        cases q <;> first | rfl | exact absurd rfl hany
      obtain ⟨sb, h2, e2, hrun3⟩ := M.bind_ok.1 hrun2
      obtain ⟨hsb, rfl⟩ := getBase_ok.1 e2
      split at hrun3
      · rename_i htype
        obtain ⟨r, h3, e3, hrun4⟩ := M.bind_ok.1 hrun3
        obtain ⟨rest, h4, e4, hrun5⟩ := M.bind_ok.1 hrun4
        have hn : ScalarNarrows p q :=
          hm.2 a (by simp) s (by simp) sb mb p q hsb hmb htype (by simpa [St.shapeAt, hsb] using hp) hsq
        rcases M.attempt_ok.1 e3 with ⟨m0, rfl, hm0⟩ | ⟨e, rfl, he⟩
        · obtain ⟨k1, g1⟩ := inheritClone_scalar (E := E) hp hq hlp hlq hn hm0
          obtain ⟨k, hnone, hsome⟩ := skip k1 e4
          obtain ⟨k2, _, _⟩ := unionSourceLoop_scalar (E := E) (hm'.mono k1) e4
          cases rest with
          | none =>
            obtain ⟨rfl, rfl⟩ := M.ret_ok.1 hrun5
            exact ⟨k, hnone, hsome⟩
          | some l =>
            obtain ⟨rfl, rfl⟩ := M.ret_ok.1 hrun5
            refine ⟨k, by simp, fun l' hl' m hmem => ?_⟩
            cases hl'
            rcases List.mem_cons.1 hmem with rfl | hmem
            · exact ⟨(inheritClone_place hp hq hlp hlq hm0).imp (by rintro rfl; simp) id, s, by simp, q, hq, (g1 m rfl).mono k2⟩
            · exact hsome l rfl m hmem
        · obtain ⟨k1, g1⟩ := inheritClone_scalar (E := E) hp hq hlp hlq hn he
          obtain ⟨k, hnone, hsome⟩ := skip k1 e4
          cases rest with
          | none =>
            obtain ⟨rfl, rfl⟩ := M.ret_ok.1 hrun5
            exact ⟨k, hnone, hsome⟩
          | some l =>
            obtain ⟨rfl, rfl⟩ := M.ret_ok.1 hrun5
            exact ⟨k, by simp, hsome⟩
      · exact skip (KeepShapes.refl _) hrun3

end GoRaml
