import Verif.Lemmas.StopsUnwrap

/-!
# Marking without custom facets stops (C79)
-/

namespace GoRaml.Stops

open GoRaml

/-- No type declares custom facets, and what was an empty map in `s0` is one. -/
structure Bare (s0 s : St) : Prop where
  defs : ∀ a b, s.base a = some b → s.props b.facetDefs = []
  keep : ∀ p, s0.props p = [] → s.props p = []

/-- A recursive reference. -/
def isRef (b : Base) : Bool := match b.shape with | some (.recursive _) => true | _ => false

/-- The number of types that marking can still enter, apart from recursive references. -/
def live (s : St) : Nat := s.bases.countP fun b => !b.visited && !isRef b

/-- The run stops, no type gets custom facets, and there are at most `L` types left. -/
def Marks {α : Type} (s0 : St) (L : Nat) (m : M St α) (s : St) : Prop := (m s).1 ≠ .diverge ∧ Bare s0 (m s).2 ∧ live (m s).2 ≤ L

section
variable {α β : Type} {L : Nat} {s s0 : St}

theorem Marks.bind {m : M St α} {f : α → M St β} (h : Marks s0 L m s) (k : ∀ x s', m s = (.ok x, s') → Bare s0 s' → live s' ≤ L → Marks s0 L (f x) s') : Marks s0 L (M.bind m f) s := by
  unfold Marks M.bind at *
  cases hm : m s with
  | mk o t =>
    rw [hm] at h
    cases o with
    | ok x => exact k x t hm h.2.1 h.2.2
    | err e => exact ⟨by simp, h.2⟩
    | panic e => exact ⟨by simp, h.2⟩
    | diverge => exact absurd rfl h.1

theorem Marks.ret {x : α} (i : Bare s0 s) (h : live s ≤ L) : Marks s0 L (M.ret x) s := ⟨by simp [M.ret], i, h⟩
theorem Marks.err {e : String} (i : Bare s0 s) (h : live s ≤ L) : Marks s0 L (M.err e : M St α) s := ⟨by simp [M.err], i, h⟩
theorem Marks.mono {L' : Nat} {m : M St α} (h : Marks s0 L m s) (hl : L ≤ L') : Marks s0 L' m s := ⟨h.1, h.2.1, Nat.le_trans h.2.2 hl⟩

theorem Marks.first {m : M St α} {f : α → M St β} {x : α} {s' : St} (h : m s = (.ok x, s')) (k : Marks s0 L (f x) s') : Marks s0 L (M.bind m f) s := by
  unfold Marks
  rw [bind_first h]
  exact k

theorem Marks.forEach {f : α → M St Unit} : ∀ (l : List α) {s : St}, Bare s0 s → live s ≤ L → (∀ x ∈ l, ∀ s', Bare s0 s' → live s' ≤ L → Marks s0 L (f x) s') → Marks s0 L (M.forEach f l) s
  | [], _, i, h, _ => .ret i h
  | x :: l, s, i, h, k => .bind (k x List.mem_cons_self s i h) fun _ s' _ i' h' => Marks.forEach l i' h' fun y hy => k y (List.mem_cons_of_mem _ hy)

theorem Bare.upd {a : Addr} {f : Base → Base} (i : Bare s0 s) (h : ∀ b, (f b).facetDefs = b.facetDefs) : Bare s0 { s with bases := s.bases.modify a f } := by
  refine ⟨fun x b' hb => ?_, i.keep⟩
  obtain ⟨b, h1, ⟨_, rfl⟩ | ⟨rfl, rfl⟩⟩ := modify_back hb
  · exact i.defs x _ h1
  · rw [h]; exact i.defs _ _ h1

theorem set_keeps {j k : Nat} {p : String × Property} {o : Option Nat} (h : s.props o = []) : (Heap.setPropAt j k p s).2.props o = [] := by
  cases o with
  | none => rfl
  | some j' =>
    simp only [Heap.setPropAt, St.props, List.getElem?_modify] at h ⊢
    cases hx : s.pmaps[j']? with
    | none => simp
    | some y =>
      rw [hx] at h
      simp only [Option.getD_some] at h
      subst h
      by_cases e : j = j' <;> simp [e]

theorem Bare.set {j k : Nat} {p : String × Property} (i : Bare s0 s) : Bare s0 (Heap.setPropAt j k p s).2 :=
  ⟨fun x b hb => set_keeps (i.defs x b hb), fun o h => set_keeps (i.keep o h)⟩

theorem countP_modify {p : Base → Bool} {f : Base → Base} : ∀ (l : List Base) (a : Nat), (l.modify a f).countP p ≤ l.countP p + 1
  | [], _ => by simp
  | b :: l, 0 => by
    simp only [List.modify_zero_cons, List.countP_cons]
    split <;> split <;> omega
  | b :: l, a + 1 => by
    have := countP_modify (p := p) (f := f) l a
    simp only [List.modify_succ_cons, List.countP_cons]
    omega

theorem countP_modify_le {p : Base → Bool} {f : Base → Base} (h : ∀ b, p (f b) = true → p b = true) : ∀ (l : List Base) (a : Nat), (l.modify a f).countP p ≤ l.countP p
  | [], _ => by simp
  | b :: l, 0 => by
    have := h b
    simp only [List.modify_zero_cons, List.countP_cons]
    cases h1 : p (f b) <;> cases h2 : p b <;> simp_all
  | b :: l, a + 1 => by
    have := countP_modify_le h l a
    simp only [List.modify_succ_cons, List.countP_cons]
    omega

theorem countP_modify_lt {p : Base → Bool} {f : Base → Base} : ∀ (l : List Base) (a : Nat) {b : Base}, l[a]? = some b → p b = true → p (f b) = false →
    (l.modify a f).countP p < l.countP p
  | [], _, _, h, _, _ => by simp at h
  | c :: l, 0, b, h, h1, h2 => by
    simp only [List.getElem?_cons_zero, Option.some.injEq] at h
    subst h
    simp [List.modify_zero_cons, List.countP_cons, h1, h2]
  | c :: l, a + 1, b, h, h1, h2 => by
    simp only [List.getElem?_cons_succ] at h
    have := countP_modify_lt l a h h1 h2
    simp only [List.modify_succ_cons, List.countP_cons]
    omega

variable {rec : Addr → M St (Option Addr)}

/-- Calls that stop where at most `L` types are left. -/
def MarkRec (s0 : St) (L : Nat) (rec : Addr → M St (Option Addr)) : Prop := ∀ a s, Bare s0 s → live s ≤ L → Marks s0 L (rec a) s

theorem markProps_marks (hr : MarkRec s0 L rec) {j : Nat} (i : Bare s0 s) (h : live s ≤ L) : Marks s0 L (markProps rec j) s := by
  refine Marks.forEach (f := markProp rec j) _ i h fun k _ s' i' h' => ?_
  cases hk : (s'.props (some j))[k]? with
  | none =>
    have : markProp rec j k s' = (.ok (), s') := by simp only [markProp, hk]
    unfold Marks
    rw [this]
    exact ⟨by simp, i', h'⟩
  | some kp =>
    have : markProp rec j k s' = M.bind (rec kp.2.base) (fun rs => whenSome rs fun r => Heap.setPropAt j k (kp.1, { kp.2 with base := r })) s' := by simp only [markProp, hk]
    unfold Marks
    rw [this]
    refine Marks.bind (hr _ s' i' h') fun rs s2 _ i2 h2 => ?_
    cases rs with
    | none => exact .ret i2 h2
    | some r => exact ⟨by simp [whenSome, Heap.setPropAt], i2.set, h2⟩

theorem markPatProps_marks (hr : MarkRec s0 L rec) {j : Nat} (i : Bare s0 s) (h : live s ≤ L) : Marks s0 L (markPatProps rec j) s := by
  refine Marks.forEach (f := markPatProp rec j) _ i h fun k _ s' i' h' => ?_
  cases hk : (s'.patProps (some j))[k]? with
  | none =>
    have : markPatProp rec j k s' = (.ok (), s') := by simp only [markPatProp, hk]
    unfold Marks
    rw [this]
    exact ⟨by simp, i', h'⟩
  | some kp =>
    have : markPatProp rec j k s' = M.bind (rec kp.2.base) (fun rs => whenSome rs fun r => Heap.setPatPropAt j k (kp.1, { kp.2 with base := r })) s' := by simp only [markPatProp, hk]
    unfold Marks
    rw [this]
    refine Marks.bind (hr _ s' i' h') fun rs s2 _ i2 h2 => ?_
    cases rs with
    | none => exact .ret i2 h2
    | some r => exact ⟨by simp [whenSome, Heap.setPatPropAt], ⟨i2.defs, i2.keep⟩, h2⟩

theorem markMembers_marks (hr : MarkRec s0 L rec) {j : Nat} (i : Bare s0 s) (h : live s ≤ L) : Marks s0 L (markMembers rec j) s := by
  refine Marks.forEach (f := markMember rec j) _ i h fun k _ s' i' h' => ?_
  cases hk : (s'.slice (some j))[k]? with
  | none =>
    have : markMember rec j k s' = (.ok (), s') := by simp only [markMember, hk]
    unfold Marks
    rw [this]
    exact ⟨by simp, i', h'⟩
  | some m =>
    have : markMember rec j k s' = M.bind (rec m) (fun rs => whenSome rs fun r => Heap.setSliceAt j k r) s' := by simp only [markMember, hk]
    unfold Marks
    rw [this]
    refine Marks.bind (hr _ s' i' h') fun rs s2 _ i2 h2 => ?_
    cases rs with
    | none => exact .ret i2 h2
    | some r => exact ⟨by simp [whenSome, Heap.setSliceAt], ⟨i2.defs, i2.keep⟩, h2⟩

theorem markShape_marks (hr : MarkRec s0 L rec) {a : Addr} {q : Option Shape} (i : Bare s0 s) (h : live s ≤ L) : Marks s0 L (markShape rec a q) s := by
  unfold markShape
  split
  · rename_i f
    cases hf : f.items with
    | none => exact .ret i h
    | some x =>
      refine Marks.bind (hr x s i h) fun rs s2 _ i2 h2 => ?_
      cases rs with
      | none => exact .ret i2 h2
      | some r =>
        refine ⟨by simp [whenSome, setArray, Heap.updBase], i2.upd fun b => ?_, Nat.le_trans (countP_modify_le (fun b => ?_) _ _) h2⟩
        · split <;> rfl
        · split
          · rename_i hs
            simp [isRef, hs]
          · exact id
  · rename_i f
    refine Marks.bind ?_ fun _ s2 _ i2 h2 => ?_
    · cases hf : f.properties with
      | none => exact .ret i h
      | some j => exact markProps_marks hr i h
    · cases hf : f.patternProperties with
      | none => exact .ret i2 h2
      | some j => exact markPatProps_marks hr i2 h2
  · rename_i l _
    cases l with
    | none => exact .ret i h
    | some j => exact markMembers_marks hr i h
  · exact .ret i h

theorem append_keeps {o : Option Nat} {s' : St} (h' : s'.pmaps = s.pmaps ++ [[]]) (h : s.props o = []) : s'.props o = [] := by
  cases o with
  | none => rfl
  | some j =>
    simp only [St.props, h', List.getElem?_append] at h ⊢
    split
    · exact h
    · cases hx : ([[]] : List (OMap Property))[j - s.pmaps.length]? with
      | none => rfl
      | some y =>
        have := List.mem_of_getElem? hx
        simp only [List.mem_singleton] at this
        simp [this]

theorem modify_last {l : List Base} {b : Base} {f : Base → Base} : (l ++ [b]).modify l.length f = l ++ [f b] := by
  induction l with
  | nil => rfl
  | cons c l ih => simp [ih]

theorem recursive_marks {a : Addr} {b : Base} (i : Bare s0 s) :
    Marks s0 (live s) (M.bind (makeRecursive a b) fun r => M.bind (Heap.updBase r fun x => { x with unwrapped := true }) fun _ => M.ret (some r)) s := by
  have key : ∃ s' c, (M.bind (makeRecursive a b) fun r => M.bind (Heap.updBase r fun x => { x with unwrapped := true }) fun _ => M.ret (some r)) s = (.ok (some s.bases.length), s') ∧
      s'.bases = s.bases ++ [c] ∧ s'.pmaps = s.pmaps ++ [[]] ∧ c.facetDefs = some s.pmaps.length ∧ c.shape = some (.recursive a) := by
    refine ⟨_, { shape := some (.recursive a)
                 id := s.idCounter + 1
                 name := b.name
                 type := "recursive"
                 description := b.description
                 domainProps := b.domainProps
                 facets := b.facets
                 facetDefs := some s.pmaps.length
                 location := b.location
                 unwrapped := true }, rfl, ?_, rfl, rfl, rfl⟩
    show ((s.bases ++ [_]).modify s.bases.length _).modify s.bases.length _ = _
    rw [modify_last, modify_last]
  obtain ⟨s', c, h1, h2, h3, h4, h5⟩ := key
  unfold Marks
  rw [h1]
  refine ⟨by simp, ⟨fun x y hy => ?_, fun o ho => append_keeps h3 (i.keep o ho)⟩, ?_⟩
  · simp only [St.base, h2, List.getElem?_append] at hy
    split at hy
    · exact append_keeps h3 (i.defs x y hy)
    · have := List.mem_of_getElem? hy
      simp only [List.mem_singleton] at this
      subst this
      rw [h4]
      simp [St.props, h3]
  · simp [live, h2, isRef, h5]

/-- Without custom facets marking stops after as many nested calls as there are types. -/
theorem mark_marks : ∀ (n : Nat) (a : Addr) (s0 s : St), Bare s0 s → live s < n → Marks s0 (live s) (mark n a) s
  | 0, _, _, _, _, h => absurd h (Nat.not_lt_zero _)
  | n + 1, a, s0, s, i, h => by
    unfold mark
    cases hb : s.base a with
    | none =>
      refine ⟨?_, ?_⟩
      · simp [M.bind, Heap.getBase, hb]
      · simp only [M.bind, Heap.getBase, hb]
        exact ⟨i, Nat.le_refl _⟩
    | some b =>
      unfold Marks
      rw [bind_first (m := Heap.getBase a) (x := b) (s' := s) (by simp [Heap.getBase, hb])]
      suffices k : Marks s (live s) _ s from ⟨k.1, ⟨k.2.1.defs, fun o ho => k.2.1.keep o (i.keep o ho)⟩, k.2.2⟩
      have i : Bare s s := ⟨i.defs, fun _ h => h⟩
      split
      · exact .err i (Nat.le_refl _)
      split
      · exact recursive_marks i
      rename_i _ hv
      have hv : b.visited = false := by simpa using hv
      have facets : ∀ s', Bare s s' → live s' ≤ live s →
          Marks s (live s) (M.bind (whenSome b.facetDefs fun i => markProps (mark n) i) fun _ => M.ret (none : Option Addr)) s' := by
        intro s' i' h'
        refine .bind ?_ fun _ s2 _ i2 h2 => .ret i2 h2
        have e := i'.keep _ (i.defs a b hb)
        cases hf : b.facetDefs with
        | none => exact .ret i' h'
        | some j =>
          rw [hf] at e
          have : markProps (mark n) j s' = (.ok (), s') := by simp only [markProps, e]; rfl
          unfold Marks
          simp only [whenSome, this]
          exact ⟨by simp, i', h'⟩
      have i1 : Bare s { s with bases := s.bases.modify a fun x => { x with visited := true } } := i.upd fun _ => rfl
      refine .first (s' := { s with bases := s.bases.modify a fun x => { x with visited := true } }) rfl ?_
      by_cases hq : isRef b = true
      · obtain ⟨y, hy⟩ : ∃ y, b.shape = some (.recursive y) := by
          unfold isRef at hq
          split at hq
          · exact ⟨_, by assumption⟩
          · cases hq
        rw [hy]
        refine .first (x := ()) rfl (.first (x := ()) (s' := { s with bases := (s.bases.modify a fun x => { x with visited := true }).modify a fun x => { x with visited := false } }) rfl ?_)
        refine facets _ (i1.upd fun _ => rfl) ?_
        have hb' : s.bases[a]? = some b := hb
        have hm : (s.bases.modify a fun x => { x with visited := true }).modify a (fun x => { x with visited := false }) = s.bases := by
          apply List.ext_getElem?
          intro x
          simp only [List.getElem?_modify]
          by_cases hx : a = x
          · subst hx
            rw [hb']
            simp [← hv]
          · simp [hx]
        simp only [live, hm]
        exact Nat.le_refl _
      · have hq : isRef b = false := by simpa using hq
        have hlt : live { s with bases := s.bases.modify a fun x => { x with visited := true } } < live s :=
          countP_modify_lt _ a hb (by simp [hv, hq]) (by simp)
        have hrec : MarkRec s (live { s with bases := s.bases.modify a fun x => { x with visited := true } }) (mark n) := fun a' s' i' h' =>
          (mark_marks n a' s s' i' (by omega)).mono h'
        have hm := markShape_marks hrec (a := a) (q := b.shape) i1 (Nat.le_refl _)
        generalize ({ s with bases := s.bases.modify a fun x => { x with visited := true } } : St) = s1 at *
        have hm' : Marks s (live s) (markShape (mark n) a b.shape) s1 := hm.mono (by omega)
        cases hr : markShape (mark n) a b.shape s1 with
        | mk o s2 =>
          unfold Marks at hm ⊢
          rw [hr] at hm
          cases o with
          | ok x =>
            refine Marks.first hr (.first (x := ()) (s' := { s2 with bases := s2.bases.modify a fun x => { x with visited := false } }) rfl ?_)
            refine facets _ (hm.2.1.upd fun _ => rfl) ?_
            have h1 := countP_modify (p := fun b => !b.visited && !isRef b) (f := fun x => { x with visited := false }) s2.bases a
            have h2 : live s2 ≤ live s1 := hm.2.2
            have h3 : live { s2 with bases := s2.bases.modify a fun x => { x with visited := false } } ≤ live s2 + 1 := h1
            omega
          | err e => simp only [M.bind, hr]; exact ⟨by simp, hm.2.1, Nat.le_trans hm.2.2 (Nat.le_of_lt hlt)⟩
          | panic e => simp only [M.bind, hr]; exact ⟨by simp, hm.2.1, Nat.le_trans hm.2.2 (Nat.le_of_lt hlt)⟩
          | diverge => exact absurd rfl hm.1
end

end GoRaml.Stops
