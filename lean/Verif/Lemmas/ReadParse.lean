import Verif.Lemmas.ReadResolve

/-!
# Decoding fidelity: a whole parse
-/

namespace GoRaml.Read

open GoRaml GoRaml.Spec GoRaml.Load

section
variable {E : Env} {s s' : St}

theorem tied_empty : Tied E {} where
  len := rfl
  own := fun a b hb => by simp [St.base] at hb
  clear := fun a b hb => by simp [St.base] at hb
  dts := fun p i h => by simp [getFragment, OMap.get] at h
  nes := fun p i h => by simp [getFragment, OMap.get] at h

theorem decodeEntry_reads {n : Nat} {text path : String} {f : FragRef} (hf : E.file path = some text) (hr : decodeEntry E n text path {} = (.ok f, s')) : Call E {} s' := by
  unfold decodeEntry at hr
  obtain ⟨head, s1, r1, r2⟩ := M.bind_ok.1 hr
  obtain ⟨_, rfl⟩ := M.lift_ok.1 r1
  obtain ⟨kind, s1, r3, r4⟩ := M.bind_ok.1 r2
  obtain ⟨_, rfl⟩ := M.lift_ok.1 r3
  cases kind with
  | library =>
    obtain ⟨i, s2, r5, r6⟩ := M.bind_ok.1 r4
    obtain ⟨_, rfl⟩ := M.ret_ok.1 r6
    exact decodeLibrary_reads (good E n) tied_empty hf r5
  | dataType =>
    obtain ⟨i, s2, r5, r6⟩ := M.bind_ok.1 r4
    obtain ⟨_, rfl⟩ := M.ret_ok.1 r6
    exact (decodeDataType_reads (good E n) tied_empty hf r5).1
  | namedExample =>
    obtain ⟨i, s2, r5, r6⟩ := M.bind_ok.1 r4
    obtain ⟨_, rfl⟩ := M.ret_ok.1 r6
    exact (decodeNamedExample_reads tied_empty hf (by simp [getFragment, OMap.get]) r5).1

theorem call_pop (h : Tied E s) : Call E s { s with unresolved := s.unresolved.tail } :=
  .quiet h (h.same rfl rfl rfl (List.prefix_refl _) rfl)
    (chg_other rfl rfl rfl rfl (List.prefix_refl _) (List.prefix_refl _) (List.prefix_refl _) (List.prefix_refl _) (List.prefix_refl _) fun _ _ h => h) rfl rfl

theorem resolveLoop_reads (n : Nat) : ∀ (m : Nat) (good : Bool) (s s' : St), W E noPerm s → Tied E s → resolveLoop E n m good s = (.ok (), s') → Solved E noX s s'
  | m, good, s, s', hw, ht, h => by
    unfold resolveLoop at h
    cases hu : s.unresolved with
    | nil =>
      rw [hu] at h
      simp only at h
      split at h
      · cases h; exact .refl ht
      · cases h
    | cons a l =>
      rw [hu] at h
      cases m with
      | zero => simp at h
      | succ m =>
        simp only at h
        obtain ⟨r, s1, h1, h2⟩ := M.bind_ok.1 h
        obtain ⟨_, s2, h3, h4⟩ := M.bind_ok.1 h2
        cases h3
        have hc : Calm noPerm s := fun _ hp => hp.elim
        have ha : IsBase s a := hw.unresolved a (by rw [hu]; simp)
        have hrun := resolveShape_run (K := anyCtl) trivial (anyRegs E) n noPerm s a hw trivial hc ha
        unfold Run at hrun
        unfold M.attempt at h1
        cases hm : resolveShape E n a s with
        | mk o t =>
          rw [hm] at h1 hrun
          cases o with
          | ok x =>
            simp only [Prod.mk.injEq, Out.ok.injEq] at h1
            obtain ⟨rfl, rfl⟩ := h1
            obtain ⟨hw1, _, g1, hc1, r1⟩ := hrun
            obtain ⟨rest, hrest⟩ := g1.unresolved
            have hu1 : t.unresolved = a :: (l ++ rest) := by rw [← hrest, hu]; rfl
            have k1 := resolveShape_reads E n noPerm s a t hw hc ht ha hm
            have k2 := (call_pop k1.tied).solved k1.tied
            have k3 := resolveLoop_reads n m _ _ s' (hw1.pop hu1 hc1) k2.tied h4
            exact (k1.trans k2 fun _ h => h.elim).trans k3 fun _ h => h.elim
          | err e =>
            simp only [Prod.mk.injEq, Out.ok.injEq] at h1
            obtain ⟨rfl, rfl⟩ := h1
            simp only [Bool.and_false] at h4
            exact absurd h4 (resolveLoop_bad E n m _ _)
          | panic e => simp at h1
          | diverge => simp at h1

/-- Only what annotations are linked to has changed. -/
def Linked (s s' : St) : Prop := SameExts s s' ∧ ∃ exts, s' = { s with domainExts := exts }

theorem Linked.refl (s : St) : Linked s s := ⟨.refl s, _, rfl⟩

theorem Linked.trans {s1 s2 s3 : St} (h : Linked s1 s2) (h' : Linked s2 s3) : Linked s1 s3 := by
  obtain ⟨h1, e1, rfl⟩ := h
  obtain ⟨h2, e2, rfl⟩ := h'
  exact ⟨h1.trans h2, e2, rfl⟩

theorem resolveDomainExtension_linked {i : Nat} {o : Out Unit} (h : resolveDomainExtension i s = (o, s')) : Linked s s' := by
  unfold resolveDomainExtension at h
  cases hd : s.domainExts[i]? with
  | none => rw [hd] at h; cases h; exact .refl _
  | some de =>
    rw [hd] at h
    simp only [M.bind, M.lift] at h
    cases hg : getReferenced s Lib.annotationTypes de.name de.location with
    | ok ref =>
      rw [hg] at h
      cases h
      refine ⟨fun j de' hj => ?_, _, rfl⟩
      by_cases hij : i = j
      · subst hij; exact ⟨{ de' with definedBy := some ref }, by simp [List.getElem?_modify, hj], rfl, rfl, rfl⟩
      · exact ⟨de', by simp [List.getElem?_modify, hij, hj], rfl, rfl, rfl⟩
    | err e => rw [hg] at h; cases h; exact .refl _
    | panic e => rw [hg] at h; cases h; exact .refl _
    | diverge => rw [hg] at h; cases h; exact .refl _

theorem resolveExtLoop_linked : ∀ (l : List Nat) (good : Bool) (s s' : St), resolveExtLoop l good s = (.ok (), s') → Linked s s'
  | [], good, s, s', h => by
    unfold resolveExtLoop at h
    split at h
    · cases h; exact .refl _
    · cases h
  | i :: l, good, s, s', h => by
    unfold resolveExtLoop at h
    obtain ⟨r, s1, h1, h2⟩ := M.bind_ok.1 h
    refine Linked.trans ?_ (resolveExtLoop_linked l _ s1 s' h2)
    unfold M.attempt at h1
    cases hm : resolveDomainExtension i s with
    | mk o t =>
      rw [hm] at h1
      have := resolveDomainExtension_linked hm
      cases o with
      | ok x => simp only [Prod.mk.injEq, Out.ok.injEq] at h1; obtain ⟨_, rfl⟩ := h1; exact this
      | err e => simp only [Prod.mk.injEq, Out.ok.injEq] at h1; obtain ⟨_, rfl⟩ := h1; exact this
      | panic e => simp at h1
      | diverge => simp at h1

theorem Linked.later (h : Linked s s') : Later E True .all .none s s' := by
  obtain ⟨h, exts, rfl⟩ := h
  have k : Later E True .all .none s s := .refl s
  exact { b := fun _ _ _ hb => .inl ⟨hb, rfl⟩, p := k.p, q := k.q, fmaps := k.fmaps, pmaps := k.pmaps, ppmaps := k.ppmaps, slices := k.slices, exts := h, dts := k.dts,
           types := fun _ _ b hb ht => ⟨b, hb, ht, rfl⟩, refs := fun _ _ _ _ h => h }

/-- After a parse. -/
structure Faithful (E : Env) (s : St) : Prop where
  new : New E True .all {} s
  nes : ∀ p i, getFragment s p = some (.namedExample i) → ∃ m, s.nes[i]? = some m ∧ FileExamples E p m

theorem parseFromPath_reads {n m : Nat} {path : String} {f : FragRef} (h : parseFromPath E n m path {} = (.ok f, s')) : Faithful E s' := by
  unfold parseFromPath at h
  cases hfile : E.file path with
  | none => rw [hfile] at h; cases h
  | some text =>
    rw [hfile] at h
    simp only [parseFragment] at h
    obtain ⟨f', s1, h1, h2⟩ := M.bind_ok.1 h
    obtain ⟨_, s2, h3, h4⟩ := M.bind_ok.1 h2
    obtain ⟨_, s3, h5, h6⟩ := M.bind_ok.1 h4
    cases h6
    have hrun := decodeEntry_keeps (K := anyCtl) trivial (anyRegs E) n hfile trivial
    unfold Run at hrun
    rw [h1] at hrun
    obtain ⟨hw1, _⟩ := hrun
    have k1 := decodeEntry_reads hfile h1
    have k2 := resolveLoop_reads n m true s1 s2 hw1 k1.tied h3
    have k3 : Linked s2 s' := resolveExtLoop_linked _ _ _ _ h5
    have hn := ((k1.new.mono (ρ' := True) (fun h => h.elim) (Region.le_all)).trans (k2.later.mono ⟨fun _ _ h => h, fun _ _ => trivial, fun _ _ => trivial⟩ .rfl)
      k2.libs k2.dts k2.new).mono (rg' := .all) id Region.le_all
    have hl := k3.later (E := E)
    obtain ⟨_, exts, rfl⟩ := k3
    exact ⟨(hn.later hl rfl rfl).mono id Region.le_all, k2.tied.nes⟩

theorem describes (hl : Load.Loaded E s) {rg : Region} {loc : String} {v : YNode} {name : String} {a : Addr} (h : D E True rg s loc v name a) :
    Describes E s loc v name a := fun R hR => h R fun v n a hs => by
  obtain ⟨b, es, t, facets, src, h1, h2, h3, h4, h5, h6, h7, h8⟩ := hs
  refine hR _ _ _ ⟨b, es, t, facets, src, h1, h2, h3, h4, h5, h6, ?_⟩
  rcases h8 with ⟨k, _⟩ | ⟨_, k⟩
  · exact absurd (hl.typed h1) (Unk.not_typed ⟨_, k⟩)
  · exact k

/-! ## Reading maps -/

theorem lists_get {α : Type} {Q : String × YNode → α → Prop} {es : List (String × YNode)} {m : OMap α} (h : Lists (fun e x => x.1 = e.1 ∧ Q e x.2) es m) (k : String) :
    (∀ v, lastOf k es = some v → ∃ x, OMap.get m k = some x ∧ Q (k, v) x) ∧ ∀ x, OMap.get m k = some x → ∃ v, lastOf k es = some v ∧ Q (k, v) x := by
  obtain ⟨l, h1, rfl⟩ := h
  induction es using List.reverseRecOn generalizing l with
  | nil =>
    cases h1
    exact ⟨fun v h => by simp [lastOf] at h, fun x h => by simp [filled, OMap.get] at h⟩
  | append_singleton es e ih =>
    rcases List.eq_nil_or_concat l with rfl | ⟨l', x, rfl⟩
    · have := h1.length_eq; simp at this
    · rw [List.concat_eq_append] at *
      obtain ⟨h2, h3⟩ := List.forall₂_iff_zip.1 h1
      have hlen : es.length = l'.length := by simpa using h2
      rw [List.zip_append hlen] at h3
      have hlast : x.1 = e.1 ∧ Q e x.2 := h3 (by simp)
      have hinit : List.Forall₂ (fun e x => x.1 = e.1 ∧ Q e x.2) es l' := List.forall₂_iff_zip.2 ⟨hlen, fun hm => h3 (by simp [hm])⟩
      rw [filled_snoc, lastOf_snoc, OMap.get_set]
      obtain ⟨e1, e2⟩ := e
      obtain ⟨rfl, hq⟩ := hlast
      by_cases hk : x.1 = k
      · subst hk
        rw [if_pos rfl, if_pos rfl]
        exact ⟨fun v h => by cases h; exact ⟨_, rfl, hq⟩, fun y h => by cases h; exact ⟨_, rfl, hq⟩⟩
      · rw [if_neg hk, if_neg (Ne.symm hk)]
        exact ih l' hinit

end

end GoRaml.Read
