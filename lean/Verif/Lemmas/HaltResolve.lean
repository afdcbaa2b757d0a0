import Verif.Lemmas.HaltFrag

/-!
# Parsing ends: what resolving a type does

Resolving either leaves the state as it is, or registers a file, or gives a shape to a type that had none; new types that are left to resolve weigh less than
such a type.  This holds from every state and for every outcome.
-/

namespace GoRaml.Halt

open GoRaml GoRaml.Spec GoRaml.Load

section
variable {E : Env} {Pl : Plan E} {ex : Addr → Prop} {k k' : Nat} {s s' s'' : St} {a : Addr} {α β : Type}

/-- The base is there and is left to resolve. -/
def UnkAt (s : St) (x : Addr) (b : Base) : Prop := s.base x = some b ∧ Unk b

/-- What resolving may do. -/
structure Res (Pl : Plan E) (k : Nat) (s s' : St) : Prop where
  frag : ∀ p f, getFragment s p = some f → getFragment s' p = some f
  old : ∀ x b, s.base x = some b → ∃ b', s'.base x = some b' ∧ b'.location = b.location ∧ (Made b → Made b') ∧ (Unk b → Unk b' ∧ Pl.wt b' = Pl.wt b ∨ Made b')
  fresh : Pl.left s' < Pl.left s ∨ ∀ y b', s'.base y = some b' → Unk b' → Kept Pl s y b' ∨ Pl.wt b' < k ∨ ∃ x b, UnkAt s x b ∧ MadeAt s' x ∧ Pl.wt b' < Pl.wt b
  fair : AllFair s → AllFair s'

theorem Res.left (h : Res Pl k s s') : Pl.left s' ≤ Pl.left s := left_le h.frag

theorem Res.made {x : Addr} (h : Res Pl k s s') (hm : MadeAt s x) : MadeAt s' x := by
  obtain ⟨b, h1, h2⟩ := hm
  obtain ⟨b', h3, _, h4, _⟩ := h.old x b h1
  exact ⟨b', h3, h4 h2⟩

theorem Res.refl : Res Pl k s s where
  frag := fun _ _ h => h
  old := fun _ b h => ⟨b, h, rfl, id, fun hu => .inl ⟨hu, rfl⟩⟩
  fresh := .inr fun _ b h hu => .inl ⟨b, h, hu, rfl⟩
  fair := id

theorem Res.widen (h : Res Pl k s s') (hk : k ≤ k') : Res Pl k' s s' where
  frag := h.frag
  old := h.old
  fresh := h.fresh.imp id fun h1 y b h2 hu => (h1 y b h2 hu).imp id fun h3 => h3.imp (fun h4 => Nat.lt_of_lt_of_le h4 hk) id
  fair := h.fair

theorem Res.trans (h : Res Pl k s s') (h' : Res Pl k s' s'') : Res Pl k s s'' where
  frag := fun p f hp => h'.frag p f (h.frag p f hp)
  old := fun x b hb => by
    obtain ⟨b1, h1, h2, h3, h4⟩ := h.old x b hb
    obtain ⟨b2, k1, k2, k3, k4⟩ := h'.old x b1 h1
    refine ⟨b2, k1, k2.trans h2, fun hm => k3 (h3 hm), fun hu => ?_⟩
    rcases h4 hu with ⟨h5, h6⟩ | h5
    · exact (k4 h5).imp (fun ⟨k5, k6⟩ => ⟨k5, k6.trans h6⟩) id
    · exact .inr (k3 h5)
  fresh := by
    have l1 := h.left
    have l2 := h'.left
    rcases h.fresh with h1 | h1
    · exact .inl (by omega)
    rcases h'.fresh with h2 | h2
    · exact .inl (by omega)
    refine .inr fun y b hy hu => ?_
    rcases h2 y b hy hu with ⟨b1, h3, h4, h5⟩ | h3 | ⟨x, b1, ⟨h3, h4⟩, h5, h6⟩
    · rcases h1 y b1 h3 h4 with ⟨b0, h6, h7, h8⟩ | h6 | ⟨z, b0, h6, h7, h8⟩
      · exact .inl ⟨b0, h6, h7, h8.trans h5⟩
      · exact .inr (.inl (h5 ▸ h6))
      · exact .inr (.inr ⟨z, b0, h6, h'.made h7, h5 ▸ h8⟩)
    · exact .inr (.inl h3)
    · rcases h1 x b1 h3 h4 with ⟨b0, h7, h8, h9⟩ | h7 | ⟨z, b0, h7, h8, h9⟩
      · exact .inr (.inr ⟨x, b0, ⟨h7, h8⟩, h5, by omega⟩)
      · exact .inr (.inl (by omega))
      · exact .inr (.inr ⟨z, b0, h7, h'.made h8, by omega⟩)
  fair := fun hf => h'.fair (h.fair hf)

theorem Adds.res (h : Adds Pl ex k s s') (hx : ∀ x b, s.base x = some b → ex x → Unk b → MadeAt s' x) : Res Pl k s s' where
  frag := h.frag
  old := fun x b hb => by
    obtain ⟨b', h1, h2, h3⟩ := h.at_ x b hb
    refine ⟨b', h1, h2, h3, fun hu => ?_⟩
    by_cases he : ex x
    · exact .inr ((hx x b hb he hu).of h1)
    · have := h.frame x b he hb
      rw [h1] at this; cases this
      exact .inl ⟨hu, rfl⟩
  fresh := h.fresh.imp id fun h1 y b h2 hu => (h1 y b h2 hu).imp id .inl
  fair := h.fair

theorem Adds.res_made (h : Adds Pl (just a) k s s') (hm : MadeAt s a) : MadeAt s' a ∧ Res Pl k s s' :=
  ⟨hm.mono h, h.res fun x b hb hx hu => by subst hx; exact absurd hu (hm.of hb).not_unk⟩

theorem Adds.res_nothing (h : Adds Pl nothing k s s') : Res Pl k s s' := h.res fun _ _ _ hx => hx.elim

/-- Something has been done. -/
structure Drops (Pl : Plan E) (s s' : St) : Prop where
  res : Res Pl 0 s s'
  some : Pl.left s' < Pl.left s ∨ ∃ x b, UnkAt s x b ∧ MadeAt s' x

/-- Nothing or something has been done. -/
def Stays (Pl : Plan E) (s s' : St) : Prop := s' = s ∨ Drops Pl s s'

theorem Stays.refl : Stays Pl s s := .inl rfl

theorem Stays.res (h : Stays Pl s s') : Res Pl k s s' := by
  rcases h with rfl | h
  · exact Res.refl
  · exact h.res.widen (Nat.zero_le _)

theorem Drops.trans_res (h : Drops Pl s s') (h' : Res Pl 0 s' s'') : Drops Pl s s'' :=
  ⟨h.res.trans h', h.some.imp (fun h1 => Nat.lt_of_le_of_lt h'.left h1) fun ⟨x, b, h1, h2⟩ => ⟨x, b, h1, h'.made h2⟩⟩

theorem Stays.trans (h : Stays Pl s s') (h' : Stays Pl s' s'') : Stays Pl s s'' := by
  rcases h with rfl | h
  · exact h'
  · exact .inr (h.trans_res h'.res)

/-- Giving a shape to a type that has none. -/
theorem Res.drops {b : Base} (h : Res Pl k s s') (hb : UnkAt s a b) (hm : MadeAt s' a) (hk : k ≤ Pl.wt b) : Drops Pl s s' where
  res := { h with fresh := h.fresh.imp id fun h1 y b' h2 hu => (h1 y b' h2 hu).imp id fun h3 => .inr (h3.elim (fun h4 => ⟨a, b, hb, hm, by omega⟩) id) }
  some := .inr ⟨a, b, hb, hm⟩

/-! ## Outcomes -/

/-- `Q` holds of a result, `F` of the state after a failure. -/
def Yields (m : M St α) (s : St) (Q : α → St → Prop) (F : St → Prop) : Prop :=
  match m s with
  | (.ok x, s') => Q x s'
  | (.err _, s') => F s'
  | (.panic _, s') => F s'
  | (.diverge, _) => True

variable {m : M St α} {Q Q' : α → St → Prop} {F F' : St → Prop}

theorem Yields.bind {f : α → M St β} {R : β → St → Prop} (h : Yields m s Q F) (hf : ∀ x s', Q x s' → Yields (f x) s' R F) : Yields (M.bind m f) s R F := by
  unfold Yields at h ⊢
  unfold M.bind
  cases hm : m s with
  | mk o t =>
    rw [hm] at h
    cases o with
    | ok x => exact hf x t h
    | err e => exact h
    | panic e => exact h
    | diverge => trivial

theorem Yields.mono (h : Yields m s Q F) (hq : ∀ x s', Q x s' → Q' x s') (hf : ∀ s', F s' → F' s') : Yields m s Q' F' := by
  unfold Yields at h ⊢
  cases hm : m s with
  | mk o t =>
    rw [hm] at h
    cases o with
    | ok x => exact hq x t h
    | err e => exact hf t h
    | panic e => exact hf t h
    | diverge => trivial

theorem Yields.ret {x : α} (h : Q x s) : Yields (M.ret x) s Q F := h
theorem Yields.err {e : String} (h : F s) : Yields (M.err e : M St α) s Q F := h
theorem Yields.panic {e : String} (h : F s) : Yields (M.panic e : M St α) s Q F := h

theorem Yields.lift {o : Out α} (hq : ∀ x, o = .ok x → Q x s) (hf : F s) : Yields (M.lift o) s Q F := by
  unfold Yields M.lift
  cases o with
  | ok x => exact hq x rfl
  | err e => exact hf
  | panic e => exact hf
  | diverge => trivial

theorem Yields.getBase {Q : Base → St → Prop} (hq : ∀ b, s.base a = some b → Q b s) (hf : F s) : Yields (Heap.getBase a) s Q F := by
  unfold Yields Heap.getBase
  cases hb : s.base a with
  | some b => exact hq b hb
  | none => exact hf

theorem Yields.of_eq {m' : M St α} (h : m s = m' s) (k1 : Yields m' s Q F) : Yields m s Q F := by
  unfold Yields at k1 ⊢; rw [h]; exact k1

theorem Run.yields {d : Prop} (h : Run Pl d ex k m s Q) : Yields m s (fun x s' => Adds Pl ex k s s' ∧ Q x s') (fun s' => Adds Pl ex k s s') := by
  unfold Run at h
  unfold Yields
  cases hm : m s with
  | mk o t =>
    rw [hm] at h
    cases o with
    | diverge => trivial
    | _ => exact h

/-! ## Giving a shape -/


theorem nodes_mem {loc : String} {l : List YNode} {u : YNode} (hu : u ∈ l) : Pl.node loc u ≤ Pl.nodes loc l := nodeW_mem hu

/-- The facets weigh at most `k`. -/
def Light (Pl : Plan E) (k : Nat) (loc : String) (facets : Option (List YNode)) : Prop := Pl.nodes loc (facets.getD []) ≤ k

theorem Light.below {n U : Nat} {d : Prop} {loc : String} {facets : Option (List YNode)} (h : Light Pl k loc facets) (hd : n < U * Pl.top + k → d) :
    ∀ l, facets = some l → ∀ u ∈ l, Below Pl d U k (calls E n) loc u := by
  rintro l rfl u hu
  have h1 : Pl.nodes loc l ≤ k := h
  have h2 := nodes_mem (Pl := Pl) (loc := loc) hu
  exact (callsOK n).below (by omega) fun hn => hd (by omega)

theorem Light.none {loc : String} : Light Pl k loc none := by simp [Light, Plan.nodes, listW]

variable {n : Nat} {facets : Option (List YNode)}

/-- The run of `makeConcrete` for a known type: whatever the outcome, the base has a shape. -/
theorem concrete_yields {t : String} {b : Base} (hb : s.base a = some b) (hf : Light Pl k b.location facets) (ht : Kind (emptyShape t) ≠ "unknown") :
    Yields (makeConcrete E (calls E n) a t facets) s (fun _ s' => MadeAt s' a ∧ Res Pl k s s') (fun s' => MadeAt s' a ∧ Res Pl k s s') := by
  have hmade : Made { b with type := t, shape := some (emptyShape t) } := ⟨_, rfl, ht⟩
  let s1 : St := { s with bases := s.bases.modify a fun b => { b with type := t, shape := some (emptyShape t) } }
  have hb1 : s1.base a = some { b with type := t, shape := some (emptyShape t) } := base_upd.trans ((if_pos rfl).trans (by rw [hb]; rfl))
  have hm1 : MadeAt s1 a := ⟨_, hb1, hmade⟩
  have g1 : Adds Pl (just a) k s s1 := by
    refine Adds.upd rfl fun b' hb' => ?_
    rw [hb] at hb'; cases hb'
    exact ⟨rfl, fun _ => hmade, fun _ _ => ht, fun hu => absurd hu hmade.not_unk⟩
  have r1 : Res Pl k s s1 := g1.res fun x _ _ hx _ => by subst hx; exact hm1
  refine Yields.of_eq (m' := fun _ => unmarshalYAMLNodes E (calls E n) a b.location (emptyShape t) facets s1) (by simp [makeConcrete, M.bind, Heap.getBase, hb, Heap.updBase, s1]) ?_
  have h := (unmarshalYAMLNodes_run (Pl := Pl) (E := E) (ex := just a) (d := True) (U := Pl.left s1) (k := k) (c := calls E n) (loc := b.location) (t := t) (facets := facets) rfl
    (hf.below fun _ => trivial) (Nat.le_refl _) (fun _ => hm1) fun h => absurd h ht).yields
  have h2 := h.mono (Q' := fun _ s' => MadeAt s' a ∧ Res Pl k s s') (F' := fun s' => MadeAt s' a ∧ Res Pl k s s') (fun _ s' h => ⟨(h.1.res_made hm1).1, r1.trans (h.1.res_made hm1).2⟩)
    fun s' h => ⟨(h.res_made hm1).1, r1.trans (h.res_made hm1).2⟩
  exact h2

theorem newShape_run {name t loc : String} {d : Prop} (ht : t = "" ∨ Kind (emptyShape t) ≠ "unknown") :
    Run Pl d nothing 2 (makeNewShape E (calls E n) name t loc) s (fun m s' => ∃ b, s'.base m = some b ∧ b.location = loc) := by
  unfold makeNewShape
  refine Run.newBase fun x s1 _ g1 ⟨b, hb, hl, hsh⟩ => ?_
  refine Run.bind (makeConcrete_run (U := Pl.left s1) (.inr rfl) (fun b' hb' => ⟨fun l hl => (by cases hl), fun hk => ?_⟩) (Nat.le_refl _)) fun _ s2 g2 _ => ?_
  · rw [hb] at hb'; cases hb'
    rcases ht with rfl | ht
    · refine ⟨by simp [FacetsFit, Plan.nodes, listW], ?_⟩
      rintro ⟨sh, h1, _⟩
      rw [hsh] at h1; cases h1
    · exact absurd hk ht
  · obtain ⟨b', h1, h2, _⟩ := g2.at_ x b hb
    exact Run.ret ⟨b', h1, h2.trans hl⟩

theorem newShape_yields {name t loc : String} (ht : t = "" ∨ Kind (emptyShape t) ≠ "unknown") (hk : 2 ≤ k) :
    Yields (makeNewShape E (calls E n) name t loc) s (fun m s' => Res Pl k s s' ∧ ∃ b, s'.base m = some b ∧ b.location = loc) (fun s' => Res Pl k s s') :=
  (newShape_run (d := True) ht).yields.mono (fun _ _ h => ⟨h.1.res_nothing.widen hk, h.2⟩) fun _ h => h.res_nothing.widen hk

theorem setAnyOf_run {ss : List Addr} {d : Prop} (hm : MadeAt s a) : Run Pl d (just a) k (setAnyOf a ss) s (fun _ _ => True) := by
  unfold setAnyOf
  refine Run.bind quiet_newSlice.run fun i s1 g1 _ => ?_
  exact (Run.setShape (ex := just a) (sh := .union (some i) none) rfl (by simp [Kind]) fun b hb => .inl ((hm.mono g1).of hb)).post fun _ _ _ _ => trivial

theorem setArray_run {f : ArrayF} {d : Prop} (hm : MadeAt s a) : Run Pl d (just a) k (setArray a f) s (fun _ _ => True) := by
  refine ⟨Adds.upd rfl fun b hb => ?_, trivial⟩
  have h1 := hm.of hb
  split
  · have h2 : Made { b with shape := some (.array f) } := ⟨_, rfl, by simp [Kind]⟩
    exact ⟨rfl, fun _ => h2, fun hf _ => hf h1, fun hu => absurd hu h2.not_unk⟩
  · exact ⟨rfl, id, id, fun hu => absurd hu h1.not_unk⟩

theorem appendInherits_run {ref : Addr} {d : Prop} : Run Pl d (just a) k (appendInherits a ref) s (fun _ _ => True) := by
  cases hb : s.base a with
  | none => exact Run.of_eq (m' := M.panic "nil pointer dereference") (by simp [appendInherits, hb, M.panic]) Run.panic
  | some b =>
    refine Run.of_eq (m' := M.bind (Heap.newSlice (s.slice b.inherits ++ [ref])) fun i => Heap.updBase a fun b => { b with inherits := some i }) (by simp [appendInherits, hb]) ?_
    exact Run.bind quiet_newSlice.run fun i s1 g1 _ => (Run.upd (a := a) (f := fun b => { b with inherits := some i }) (ex := just a) rfl fun _ => ⟨rfl, rfl, rfl⟩).post fun _ _ _ _ => trivial

/-- A part of the work on a base that has a shape. -/
theorem Run.done (h : Run Pl True (just a) k m s Q) (hm : MadeAt s a) : Yields m s (fun _ s' => MadeAt s' a ∧ Res Pl k s s') (fun s' => MadeAt s' a ∧ Res Pl k s s') :=
  h.yields.mono (fun _ _ h => h.1.res_made hm) fun _ h => h.res_made hm

/-! ## Expressions -/

/-- What a nested call does. -/
def RecGood (Pl : Plan E) (rec : Addr → M St Unit) : Prop := ∀ x s, AllFair s → Yields (rec x) s (fun _ s' => Stays Pl s s' ∧ MadeAt s' x) (fun s' => Stays Pl s s')

/-- The base has been given a shape. -/
def Got (Pl : Plan E) (k : Nat) (a : Addr) (s s' : St) : Prop := MadeAt s' a ∧ Res Pl k s s'

theorem Got.trans (h : Res Pl k s s') (h' : Got Pl k a s' s'') : Got Pl k a s s'' := ⟨h'.1, h.trans h'.2⟩

theorem Got.then (h : Got Pl k a s s') (h' : Res Pl k s' s'') : Got Pl k a s s'' := ⟨h'.made h.1, h.2.trans h'⟩

theorem MadeAt.kind {x : Addr} {b : Base} (h : MadeAt s x) (hf : AllFair s) (hb : s.base x = some b) : Kind (emptyShape b.type) ≠ "unknown" := hf x b hb (h.of hb)

/-- Giving the target the type of another base. -/
theorem like_yields {i : Addr} {b : Base} (hs : AllFair s) (hi : MadeAt s i) (hb : s.base a = some b) (hf : Light Pl k b.location facets) :
    Yields (M.bind (Heap.getBase i) fun ib => makeConcrete E (calls E n) a ib.type facets) s (fun _ s' => Got Pl k a s s') (fun s' => Got Pl k a s s') := by
  obtain ⟨ib, hib, hm⟩ := hi
  refine Yields.of_eq (m' := makeConcrete E (calls E n) a ib.type facets) (by simp [M.bind, Heap.getBase, hib]) ?_
  exact concrete_yields hb hf (hs i ib hib hm)

variable {rec : Addr → M St Unit}

theorem visitReference_yields (hrec : RecGood Pl rec) (hs : AllFair s) {b : Base} (hb : s.base a = some b) (hf : Light Pl k b.location facets) {text : String} :
    Yields (visitReference E (calls E n) rec text a facets) s (fun _ s' => Got Pl k a s s') (fun s' => Got Pl k a s s' ∨ Stays Pl s s') := by
  unfold visitReference
  refine Yields.bind (Q := fun b' s' => s = s' ∧ b = b') (Yields.getBase (fun b' hb' => ⟨rfl, by rw [hb] at hb'; cases hb'; rfl⟩) (Or.inr Stays.refl)) ?_
  rintro _ _ ⟨rfl, rfl⟩
  refine Yields.bind (m := M.lift (getReferenced s Lib.types text b.location)) (Q := fun _ s' => s = s') (Yields.lift (fun _ _ => rfl) (Or.inr Stays.refl)) ?_
  rintro ref _ rfl
  refine Yields.bind (Q := fun _ s' => s = s') (Yields.getBase (fun _ _ => rfl) (Or.inr Stays.refl)) ?_
  rintro rb _ rfl
  split
  · exact Yields.err (Or.inr Stays.refl)
  refine Yields.bind ((hrec ref s hs).mono (fun _ _ h => h) fun _ h => .inr h) fun _ s1 ⟨g1, hm⟩ => ?_
  have r1 : Res Pl k s s1 := g1.res
  obtain ⟨b1, hb1, hl1, _⟩ := r1.old a b hb
  refine Yields.bind (Q := fun b' s' => s1 = s' ∧ s1.base ref = some b') (Yields.getBase (fun b' h => ⟨rfl, h⟩) (.inr g1)) ?_
  rintro rb' _ ⟨rfl, hrb⟩
  refine Yields.bind ((concrete_yields (k := k) hb1 (by rw [hl1]; exact hf) (hm.kind (r1.fair hs) hrb)).mono (fun _ _ h => h) fun _ h => .inl (.trans r1 h)) fun _ s2 g2 => ?_
  have g2 : Got Pl k a s1 s2 := g2
  have hup : Run Pl True (just a) k (Heap.updBase a fun b => { b with typeLabel := text }) s2 (fun _ _ => True) :=
    (Run.upd (a := a) (f := fun b => { b with typeLabel := text }) (ex := just a) rfl fun _ => ⟨rfl, rfl, rfl⟩).post fun _ _ _ _ => trivial
  refine Yields.bind ((hup.done g2.1).mono (fun _ _ h => h) fun _ h => .inl (.trans r1 (g2.then h.2))) fun _ s3 g3 => ?_
  have g3 : Got Pl k a s1 s3 := g2.then g3.2
  have hrest : ∀ ref, Run Pl True (just a) k (Heap.updBase a fun b => { b with «alias» := some ref }) s3 (fun _ _ => True) := fun ref =>
    (Run.upd (a := a) (f := fun b => { b with «alias» := some ref }) (ex := just a) rfl fun _ => ⟨rfl, rfl, rfl⟩).post fun _ _ _ _ => trivial
  cases facets with
  | none => exact ((hrest ref).done g3.1).mono (fun _ _ h => .trans r1 (g3.then h.2)) fun _ h => .inl (.trans r1 (g3.then h.2))
  | some l => exact (appendInherits_run.done g3.1).mono (fun _ _ h => .trans r1 (g3.then h.2)) fun _ h => .inl (.trans r1 (g3.then h.2))

/-- Visiting an expression for a target. -/
def AtGood (Pl : Plan E) (at_ : Addr → Option (List YNode) → M St Unit) : Prop :=
  ∀ s a facets b k, AllFair s → s.base a = some b → Light Pl k b.location facets → 2 ≤ k →
    Yields (at_ a facets) s (fun _ s' => Got Pl k a s s') (fun s' => Got Pl k a s s' ∨ Stays Pl s s')

/-- Visiting the members of a union. -/
def MembersGood (Pl : Plan E) (members : String → M St (List Addr)) : Prop :=
  ∀ s loc k, AllFair s → 2 ≤ k → Yields (members loc) s (fun _ s' => Res Pl k s s') (fun s' => Res Pl k s s')


theorem last_good {at_ : Addr → Option (List YNode) → M St Unit} (h : AtGood Pl at_) : MembersGood Pl (Visitor.last E (calls E n) at_).members := by
  intro s loc k hs hk
  show Yields (M.bind (makeNewShape E (calls E n) "" "" loc) fun m => M.bind (at_ m none) fun _ => M.ret [m]) s _ _
  refine Yields.bind (newShape_yields (.inl rfl) hk) fun m s1 ⟨g1, b, hb, _⟩ => ?_
  refine Yields.bind ((h s1 m none b k (g1.fair hs) hb .none hk).mono (Q' := fun _ s' => Res Pl k s s') (fun _ _ h => g1.trans h.2) fun _ h => g1.trans (h.elim (·.2) (·.res))) fun _ s2 g2 => ?_
  exact Yields.ret g2

theorem visitor_good (hrec : RecGood Pl rec) : ∀ e : Rdt, AtGood Pl (visitor E (calls E n) rec e).at_ ∧ MembersGood Pl (visitor E (calls E n) rec e).members := by
  have hlast : ∀ {at_ : Addr → Option (List YNode) → M St Unit}, AtGood Pl at_ → AtGood Pl (Visitor.last E (calls E n) at_).at_ ∧ MembersGood Pl (Visitor.last E (calls E n) at_).members :=
    fun h => ⟨h, last_good h⟩
  intro e
  induction e with
  | prim p => exact hlast fun s a facets b k hs hb hf hk => (concrete_yields hb .none (by cases p <;> decide +kernel)).mono (fun _ _ h => h) fun _ h => .inl h
  | ref x y => exact hlast fun s a facets b k hs hb hf hk => visitReference_yields hrec hs hb hf
  | group e ih => exact hlast ih.1
  | optional e ih =>
    refine hlast fun s a facets b k hs hb hf hk => ?_
    show Yields (visitOptional E (calls E n) (visitor E (calls E n) rec e) a facets) s _ _
    unfold visitOptional
    refine Yields.bind (Q := fun _ s' => s = s') (Yields.getBase (fun _ _ => rfl) (Or.inr Stays.refl)) ?_
    rintro b' _ rfl
    refine Yields.bind ((concrete_yields hb hf (by decide +kernel)).mono (fun _ _ h => h) fun _ h => .inl h) fun _ s1 g1 => ?_
    have g1 : Got Pl k a s s1 := g1
    refine Yields.mono (Q := fun _ s' => Got Pl k a s s') (F := fun s' => Got Pl k a s s') ?_ (fun _ _ h => h) fun _ h => .inl h
    refine Yields.bind ((newShape_yields (.inl rfl) hk).mono (fun _ _ h => h) fun _ h => g1.then h) fun m s2 ⟨g2, bm, hbm, _⟩ => ?_
    have hs2 := (g1.then g2).2.fair hs
    refine Yields.bind ((ih.1 s2 m none bm k hs2 hbm .none hk).mono (Q' := fun _ s' => Got Pl k a s s') (fun _ _ h => (g1.then g2).then h.2) fun _ h => (g1.then g2).then (h.elim (·.2) (·.res))) fun _ s3 g3 => ?_
    refine Yields.bind ((newShape_yields (.inr (by decide +kernel)) hk).mono (fun _ _ h => h) fun _ h => g3.then h) fun m' s4 ⟨g4, _⟩ => ?_
    exact ((setAnyOf_run (g3.then g4).1).done (g3.then g4).1).mono (fun _ _ h => (g3.then g4).then h.2) fun _ h => (g3.then g4).then h.2
  | array e ih =>
    refine hlast fun s a facets b k hs hb hf hk => ?_
    show Yields (visitArray E (calls E n) (visitor E (calls E n) rec e) a facets) s _ _
    unfold visitArray
    refine Yields.bind (Q := fun _ s' => s = s') (Yields.getBase (fun _ _ => rfl) (Or.inr Stays.refl)) ?_
    rintro b' _ rfl
    refine Yields.bind ((concrete_yields hb hf (by decide +kernel)).mono (fun _ _ h => h) fun _ h => .inl h) fun _ s1 g1 => ?_
    have g1 : Got Pl k a s s1 := g1
    refine Yields.mono (Q := fun _ s' => Got Pl k a s s') (F := fun s' => Got Pl k a s s') ?_ (fun _ _ h => h) fun _ h => .inl h
    refine Yields.bind ((newShape_yields (.inl rfl) hk).mono (fun _ _ h => h) fun _ h => g1.then h) fun m s2 ⟨g2, bm, hbm, _⟩ => ?_
    have hs2 := (g1.then g2).2.fair hs
    refine Yields.bind ((ih.1 s2 m none bm k hs2 hbm .none hk).mono (Q' := fun _ s' => Got Pl k a s s') (fun _ _ h => (g1.then g2).then h.2) fun _ h => (g1.then g2).then (h.elim (·.2) (·.res))) fun _ s3 g3 => ?_
    refine Yields.of_eq (m' := setArray a { arrayAt s3 a with items := some m }) rfl ?_
    exact ((setArray_run g3.1).done g3.1).mono (fun _ _ h => g3.then h.2) fun _ h => g3.then h.2
  | union l r ihl ihr =>
    have hm : MembersGood Pl (visitor E (calls E n) rec (.union l r)).members := by
      intro s loc k hs hk
      show Yields (M.bind (makeNewShape E (calls E n) "" "" loc) fun m => M.bind ((visitor E (calls E n) rec l).at_ m none) fun _ =>
        M.bind ((visitor E (calls E n) rec r).members loc) fun ms => M.ret (m :: ms)) s _ _
      refine Yields.bind (newShape_yields (.inl rfl) hk) fun m s1 ⟨g1, b, hb, _⟩ => ?_
      refine Yields.bind ((ihl.1 s1 m none b k (g1.fair hs) hb .none hk).mono (Q' := fun _ s' => Res Pl k s s') (fun _ _ h => g1.trans h.2) fun _ h => g1.trans (h.elim (·.2) (·.res))) fun _ s2 g2 => ?_
      refine Yields.bind ((ihr.2 s2 loc k (g2.fair hs) hk).mono (Q' := fun _ s' => Res Pl k s s') (fun _ _ h => g2.trans h) fun _ h => g2.trans h) fun ms s3 g3 => ?_
      exact Yields.ret g3
    refine ⟨fun s a facets b k hs hb hf hk => ?_, hm⟩
    show Yields (visitUnion E (calls E n) (visitor E (calls E n) rec (.union l r)).members a facets) s _ _
    unfold visitUnion
    refine Yields.bind (Q := fun _ s' => s = s') (Yields.getBase (fun _ _ => rfl) (Or.inr Stays.refl)) ?_
    rintro b' _ rfl
    refine Yields.bind ((concrete_yields hb hf (by decide +kernel)).mono (fun _ _ h => h) fun _ h => .inl h) fun _ s1 g1 => ?_
    have g1 : Got Pl k a s s1 := g1
    refine Yields.mono (Q := fun _ s' => Got Pl k a s s') (F := fun s' => Got Pl k a s s') ?_ (fun _ _ h => h) fun _ h => .inl h
    refine Yields.bind ((hm s1 b'.location k (g1.2.fair hs) hk).mono (Q' := fun _ s' => Got Pl k a s s') (fun _ _ h => g1.then h) fun _ h => g1.then h) fun ms s2 g2 => ?_
    exact ((setAnyOf_run g2.1).done g2.1).mono (fun _ _ h => g2.then h.2) fun _ h => g2.then h.2

/-! ## One type -/

theorem forEach_good (hrec : RecGood Pl rec) : ∀ (l : List Addr) {s : St}, AllFair s →
    Yields (M.forEach rec l) s (fun _ s' => Stays Pl s s' ∧ ∀ x ∈ l, MadeAt s' x) (fun s' => Stays Pl s s')
  | [], s, _ => Yields.ret ⟨.refl, fun _ h => (by cases h)⟩
  | x :: l, s, hs => by
    unfold M.forEach
    refine Yields.bind (hrec x s hs) fun _ s1 ⟨g1, h1⟩ => ?_
    refine (forEach_good hrec l (g1.res (k := 0).fair hs)).mono (fun _ s2 ⟨g2, h2⟩ => ⟨g1.trans g2, fun y hy => ?_⟩) fun _ h => g1.trans h
    rcases List.mem_cons.1 hy with rfl | hy
    · exact (g2.res (k := 0)).made h1
    · exact h2 y hy

theorem parse_empty : parseTypeExpression "" = none := by decide +kernel

theorem wt_type {b : Base} (h : b.shape = some (.unknown facets)) (ht : b.type ≠ "") : Pl.wt b = Pl.nodes b.location (facets.getD []) + 2 := by
  unfold Plan.wt
  rw [h]
  simp [ht]

theorem resolveStep_good (hrec : RecGood Pl rec) : RecGood Pl (resolveStep E (calls E n) rec) := by
  intro a s hs
  unfold resolveStep
  refine Yields.bind (Q := fun b s' => s = s' ∧ s.base a = some b) (Yields.getBase (fun b hb => ⟨rfl, hb⟩) .refl) ?_
  rintro b _ ⟨rfl, hb⟩
  split
  · exact Yields.err .refl
  · rename_i facets hf
    have hu : UnkAt s a b := ⟨hb, facets, hf⟩
    have hgot : ∀ {k s'}, k ≤ Pl.wt b → Got Pl k a s s' → Stays Pl s s' := fun hk h => .inr (h.2.drops hu h.1 hk)
    have hwt : Pl.nodes b.location (facets.getD []) ≤ Pl.wt b := by
      unfold Plan.wt; rw [hf]; simp only; omega
    cases hl : b.link with
    | some dt =>
      simp only
      cases hd : (s.dts[dt]?).bind (·.shape) with
      | none => exact Yields.of_eq (m' := M.panic "nil pointer dereference") (by simp [resolveLink, hd, M.panic]) (Yields.panic .refl)
      | some l =>
        refine Yields.of_eq (m' := M.bind (rec l) fun _ => M.bind (Heap.getBase l) fun lb => makeConcrete E (calls E n) a lb.type facets) (by simp [resolveLink, hd]) ?_
        refine Yields.bind (hrec l s hs) fun _ s1 ⟨g1, hm⟩ => ?_
        have r1 : Res Pl (Pl.wt b) s s1 := g1.res
        obtain ⟨b1, hb1, hl1, _⟩ := r1.old a b hb
        exact (like_yields (r1.fair hs) hm hb1 (by rw [hl1]; exact hwt)).mono (fun _ _ h => ⟨hgot (Nat.le_refl _) (.trans r1 h), h.1⟩) fun _ h => hgot (Nat.le_refl _) (.trans r1 h)
    | none =>
      simp only
      split
      · refine Yields.of_eq (m' := M.bind (M.forEach rec (s.slice b.inherits)) fun _ =>
          match (s.slice b.inherits).head? with
          | none => M.panic "index out of range"
          | some i => M.bind (Heap.getBase i) fun ib => makeConcrete E (calls E n) a ib.type facets) (by simp [resolveMultipleInheritance, M.bind, Heap.getBase, hb]; rfl) ?_
        refine Yields.bind (forEach_good hrec _ hs) fun _ s1 ⟨g1, hm⟩ => ?_
        cases hh : (s.slice b.inherits).head? with
        | none => exact Yields.panic g1
        | some i =>
          have r1 : Res Pl (Pl.wt b) s s1 := g1.res
          obtain ⟨b1, hb1, hl1, _⟩ := r1.old a b hb
          exact (like_yields (r1.fair hs) (hm i (List.mem_of_mem_head? hh)) hb1 (by rw [hl1]; exact hwt)).mono (fun _ _ h => ⟨hgot (Nat.le_refl _) (.trans r1 h), h.1⟩)
            fun _ h => hgot (Nat.le_refl _) (.trans r1 h)
      · cases hp : parseTypeExpression b.type with
        | none => exact Yields.err .refl
        | some tree =>
          have ht : b.type ≠ "" := fun h => by rw [h, parse_empty] at hp; cases hp
          have h2 := wt_type (Pl := Pl) hf ht
          exact ((visitor_good hrec tree).1 s a facets b (Pl.wt b) hs hb hwt (by omega)).mono (fun _ _ h => ⟨hgot (Nat.le_refl _) h, h.1⟩)
            fun _ h => h.elim (hgot (Nat.le_refl _)) id
  · rename_i sh hnu hsh
    refine Yields.ret ⟨.refl, b, hb, sh, hsh, fun hk => ?_⟩
    cases sh with
    | unknown f => exact hnu f rfl
    | _ => simp [Kind] at hk

theorem resolveShape_good : ∀ n, RecGood Pl (resolveShape E n)
  | 0 => fun _ _ _ => trivial
  | n + 1 => resolveStep_good (resolveShape_good n)

end

end GoRaml.Halt
