import Verif.Lemmas.LoadEnds

/-!
# Parsing ends: what decoding adds

New types that are left to resolve get a weight below that of the nodes they are made from, unless a file has been registered.  This holds from
every state and for every outcome, so that it can be used after errors.
-/

namespace GoRaml.Halt

open GoRaml GoRaml.Spec GoRaml.Load

mutual

/-- The weight of a node; `inc` is the weight of an included file. -/
def nodeW (inc : String → Nat) : YNode → Nat
  | .mk _ t v c => 3 + (if t = "!include" then inc v else 0) + listW inc c

/-- The weight of a list of nodes. -/
def listW (inc : String → Nat) : List YNode → Nat
  | [] => 0
  | n :: l => nodeW inc n + listW inc l

end

/-- Weights for the files. -/
structure Plan (E : Env) where
  files : List String
  own : String → Nat
  top : Nat
  inFiles : ∀ p, E.file p ≠ none → p ∈ files
  ownLt : ∀ p, own p + 1 ≤ top
  json : ∀ p, 13 ≤ own p
  root : ∀ p text d, E.file p = some text → E.yamlParse text = some d → 4 + nodeW (fun v => own (E.joinDir p v)) (docRoot d) ≤ own p

section
variable {E : Env} (Pl : Plan E)

/-- The weight of a node of the file `loc`. -/
def Plan.node (loc : String) (v : YNode) : Nat := nodeW (fun v => Pl.own (E.joinDir loc v)) v

/-- The weight of nodes of the file `loc`. -/
def Plan.nodes (loc : String) (l : List YNode) : Nat := listW (fun v => Pl.own (E.joinDir loc v)) l

/-- The weight of a type that is left to resolve. -/
def Plan.wt (b : Base) : Nat :=
  match b.shape with
  | some (.unknown f) => Pl.nodes b.location (f.getD []) + (if b.type = "" then 1 else 2)
  | _ => 0

/-- How many files are not registered. -/
def Plan.left (s : St) : Nat := missing Pl.files s

end

/-- The type has a shape that is not a reference left to resolve. -/
def Made (b : Base) : Prop := ∃ sh, b.shape = some sh ∧ Kind sh ≠ "unknown"

/-- If the type has such a shape, its type name is a known one. -/
def Fair (b : Base) : Prop := Made b → Kind (emptyShape b.type) ≠ "unknown"

/-- All types are like that. -/
def AllFair (s : St) : Prop := ∀ x b, s.base x = some b → Fair b

theorem Made.not_unk {b : Base} (h : Made b) : ¬ Unk b := by
  rintro ⟨f, hf⟩
  obtain ⟨sh, h1, h2⟩ := h
  rw [hf] at h1; cases h1
  exact h2 rfl

/-- A base of the state that is left to resolve and has the same weight. -/
def Kept {E : Env} (Pl : Plan E) (s : St) (y : Addr) (b' : Base) : Prop := ∃ b, s.base y = some b ∧ Unk b ∧ Pl.wt b = Pl.wt b'

section
variable {E : Env} {Pl : Plan E} {ex ex' : Addr → Prop} {k k' : Nat} {s s' s'' : St}

/-- What a part of decoding may do; the bases in `ex` are being made. -/
structure Adds (Pl : Plan E) (ex : Addr → Prop) (k : Nat) (s s' : St) : Prop where
  frag : ∀ p f, getFragment s p = some f → getFragment s' p = some f
  frame : ∀ x b, ¬ ex x → s.base x = some b → s'.base x = some b
  at_ : ∀ x b, s.base x = some b → ∃ b', s'.base x = some b' ∧ b'.location = b.location ∧ (Made b → Made b')
  fresh : Pl.left s' < Pl.left s ∨ ∀ y b', s'.base y = some b' → Unk b' → Kept Pl s y b' ∨ Pl.wt b' < k
  fair : AllFair s → AllFair s'

/-- No base. -/
abbrev nothing : Addr → Prop := fun _ => False

/-- The base `a`. -/
abbrev just (a : Addr) : Addr → Prop := fun x => x = a

theorem left_le (h : ∀ p f, getFragment s p = some f → getFragment s' p = some f) : Pl.left s' ≤ Pl.left s := missing_le fun p f hp => ⟨f, h p f hp⟩

theorem Adds.left (h : Adds Pl ex k s s') : Pl.left s' ≤ Pl.left s := left_le h.frag

theorem Adds.same (hb : s'.bases = s.bases) (hf : s'.fragments = s.fragments) : Adds Pl ex k s s' where
  frag := fun p f h => by simpa only [getFragment, hf] using h
  frame := fun x b _ h => by simpa only [St.base, hb] using h
  at_ := fun x b h => ⟨b, by simpa only [St.base, hb] using h, rfl, id⟩
  fresh := .inr fun y b h hu => .inl ⟨b, by simpa only [St.base, hb] using h, hu, rfl⟩
  fair := fun h x b hx => h x b (by simpa only [St.base, hb] using hx)

theorem Adds.refl : Adds Pl ex k s s := Adds.same rfl rfl

/-- After a file has been registered, weights do not matter. -/
theorem Adds.trans_drop (h : Adds Pl ex k s s') (hd : Pl.left s' < Pl.left s) (h' : Adds Pl ex k' s' s'') : Adds Pl ex k s s'' where
  frag := fun p f hp => h'.frag p f (h.frag p f hp)
  frame := fun x b hx hb => h'.frame x b hx (h.frame x b hx hb)
  at_ := fun x b hb => by
    obtain ⟨b1, h1, h2, h3⟩ := h.at_ x b hb
    obtain ⟨b2, k1, k2, k3⟩ := h'.at_ x b1 h1
    exact ⟨b2, k1, k2.trans h2, fun hm => k3 (h3 hm)⟩
  fresh := .inl (by have := h'.left; omega)
  fair := fun hf => h'.fair (h.fair hf)

theorem Adds.trans (h : Adds Pl ex k s s') (h' : Adds Pl ex k s' s'') : Adds Pl ex k s s'' where
  frag := fun p f hp => h'.frag p f (h.frag p f hp)
  frame := fun x b hx hb => h'.frame x b hx (h.frame x b hx hb)
  at_ := fun x b hb => by
    obtain ⟨b1, h1, h2, h3⟩ := h.at_ x b hb
    obtain ⟨b2, k1, k2, k3⟩ := h'.at_ x b1 h1
    exact ⟨b2, k1, k2.trans h2, fun hm => k3 (h3 hm)⟩
  fresh := by
    have l1 := h.left
    have l2 := h'.left
    rcases h.fresh with h1 | h1
    · exact .inl (by omega)
    rcases h'.fresh with h2 | h2
    · exact .inl (by omega)
    refine .inr fun y b hy hu => ?_
    rcases h2 y b hy hu with ⟨b1, h3, h4, h5⟩ | h3
    · rcases h1 y b1 h3 h4 with ⟨b0, h6, h7, h8⟩ | h6
      · exact .inl ⟨b0, h6, h7, h8.trans h5⟩
      · exact .inr (h5 ▸ h6)
    · exact .inr h3
  fair := fun hf => h'.fair (h.fair hf)

theorem Adds.widen (h : Adds Pl ex k s s') (hx : ∀ x b, s.base x = some b → ex x → ex' x) (hk : k ≤ k') : Adds Pl ex' k' s s' where
  frag := h.frag
  frame := fun x b hn hb => h.frame x b (fun hp => hn (hx x b hb hp)) hb
  at_ := h.at_
  fresh := h.fresh.imp id fun h1 y b h2 hu => (h1 y b h2 hu).imp id fun h3 => Nat.lt_of_lt_of_le h3 hk
  fair := h.fair

/-! ## Runs -/

/-- What a run of `m` from `s` ensures; `d` holds if it runs out of fuel. -/
def Run {α : Type} (Pl : Plan E) (d : Prop) (ex : Addr → Prop) (k : Nat) (m : M St α) (s : St) (Q : α → St → Prop) : Prop :=
  match m s with
  | (.ok x, s') => Adds Pl ex k s s' ∧ Q x s'
  | (.err _, s') => Adds Pl ex k s s'
  | (.panic _, s') => Adds Pl ex k s s'
  | (.diverge, _) => d

variable {α β : Type} {d d' : Prop} {m : M St α} {Q Q' : α → St → Prop} {a : Addr}

theorem Run.bind {f : α → M St β} {R : β → St → Prop} (h : Run Pl d ex k m s Q) (hf : ∀ x s', Adds Pl ex k s s' → Q x s' → Run Pl d ex k (f x) s' R) :
    Run Pl d ex k (M.bind m f) s R := by
  unfold Run at h ⊢
  unfold M.bind
  cases hm : m s with
  | mk o t =>
    rw [hm] at h
    cases o with
    | ok x =>
      have h2 := hf x t h.1 h.2
      unfold Run at h2
      simp only
      cases hfx : f x t with
      | mk o' u =>
        rw [hfx] at h2
        cases o' with
        | ok y => exact ⟨h.1.trans h2.1, h2.2⟩
        | err e => exact h.1.trans h2
        | panic e => exact h.1.trans h2
        | diverge => exact h2
    | err e => exact h
    | panic e => exact h
    | diverge => exact h

/-- The rest runs after a file has been registered. -/
theorem Run.jump {m' : M St α} (h : m s = m' s') (g : Adds Pl ex k s s') (hd : Pl.left s' < Pl.left s) (r : Run Pl d ex k' m' s' Q) : Run Pl d ex k m s Q := by
  unfold Run at r ⊢
  rw [h]
  cases hm : m' s' with
  | mk o t =>
    rw [hm] at r
    cases o with
    | ok x => exact ⟨g.trans_drop hd r.1, r.2⟩
    | err e => exact g.trans_drop hd r
    | panic e => exact g.trans_drop hd r
    | diverge => exact r

theorem Run.ret {x : α} (h : Q x s) : Run Pl d ex k (M.ret x) s Q := ⟨Adds.refl, h⟩

theorem Run.err {e : String} : Run Pl d ex k (M.err e : M St α) s Q := (Adds.refl : Adds Pl ex k s s)

theorem Run.panic {e : String} : Run Pl d ex k (M.panic e : M St α) s Q := (Adds.refl : Adds Pl ex k s s)

theorem Run.mono (h : Run Pl d ex k m s Q) (hd : d → d') (hx : ∀ x b, s.base x = some b → ex x → ex' x) (hk : k ≤ k') (hq : ∀ x s', Adds Pl ex k s s' → Q x s' → Q' x s') :
    Run Pl d' ex' k' m s Q' := by
  unfold Run at h ⊢
  cases hm : m s with
  | mk o t =>
    rw [hm] at h
    cases o with
    | ok x => exact ⟨h.1.widen hx hk, hq x t h.1 h.2⟩
    | err e => exact h.widen hx hk
    | panic e => exact h.widen hx hk
    | diverge => exact hd h

theorem Run.post (h : Run Pl d ex k m s Q) (hq : ∀ x s', Adds Pl ex k s s' → Q x s' → Q' x s') : Run Pl d ex k m s Q' :=
  h.mono id (fun _ _ _ h => h) (Nat.le_refl _) hq

theorem Run.of_eq {m' : M St α} (h : m s = m' s) (k1 : Run Pl d ex k m' s Q) : Run Pl d ex k m s Q := by
  unfold Run at k1 ⊢; rw [h]; exact k1

/-- A part that changes nothing that exists. -/
theorem Run.inner (h : Run Pl d nothing k m s Q) (hk : k ≤ k') : Run Pl d ex k' m s (fun x s' => Adds Pl nothing k s s' ∧ Q x s') :=
  h.mono id (fun _ _ _ h => h.elim) hk fun _ _ g h => ⟨g, h⟩

theorem Run.lift {o : Out α} (ho : o ≠ .diverge) (hq : ∀ x, o = .ok x → Q x s) : Run Pl d ex k (M.lift o) s Q := by
  unfold Run M.lift
  cases o with
  | ok x => exact ⟨Adds.refl, hq x rfl⟩
  | err e => exact Adds.refl
  | panic e => exact Adds.refl
  | diverge => exact absurd rfl ho

/-- A pure part. -/
theorem Run.bindLift {o : Out α} {f : α → M St β} {R : β → St → Prop} (ho : o ≠ .diverge) (hf : ∀ x, o = .ok x → Run Pl d ex k (f x) s R) :
    Run Pl d ex k (M.bind (M.lift o) f) s R := by
  unfold M.bind M.lift Run
  cases o with
  | ok x => exact hf x rfl
  | err e => exact Adds.refl
  | panic e => exact Adds.refl
  | diverge => exact absurd rfl ho

theorem Run.bindGet {f : Base → M St β} {R : β → St → Prop} (hf : ∀ b, s.base a = some b → Run Pl d ex k (f b) s R) : Run Pl d ex k (M.bind (Heap.getBase a) f) s R := by
  cases hb : s.base a with
  | some b => exact Run.of_eq (m' := f b) (by simp [M.bind, Heap.getBase, hb]) (hf b hb)
  | none => exact Run.of_eq (m' := M.panic "nil pointer dereference") (by simp [M.bind, Heap.getBase, hb, M.panic]) Run.panic

/-- The computation ends and leaves the bases and the fragments as they are. -/
def Quiet (m : M St α) : Prop := ∀ s, (m s).1 ≠ .diverge ∧ (m s).2.bases = s.bases ∧ (m s).2.fragments = s.fragments

theorem Quiet.bind {f : α → M St β} (h : Quiet m) (hf : ∀ x, Quiet (f x)) : Quiet (M.bind m f) := by
  intro s
  have h1 := h s
  unfold M.bind
  cases hm : m s with
  | mk o t =>
    rw [hm] at h1
    cases o with
    | ok x =>
      have h2 := hf x t
      exact ⟨h2.1, h2.2.1.trans h1.2.1, h2.2.2.trans h1.2.2⟩
    | err e => exact ⟨by simp, h1.2⟩
    | panic e => exact ⟨by simp, h1.2⟩
    | diverge => exact absurd rfl h1.1

theorem Quiet.ret {x : α} : Quiet (M.ret x) := fun _ => ⟨by simp [M.ret], rfl, rfl⟩
theorem Quiet.err {e : String} : Quiet (M.err e : M St α) := fun _ => ⟨by simp [M.err], rfl, rfl⟩
theorem Quiet.panic {e : String} : Quiet (M.panic e : M St α) := fun _ => ⟨by simp [M.panic], rfl, rfl⟩
theorem Quiet.lift {o : Out α} (ho : o ≠ .diverge) : Quiet (M.lift o) := fun _ => ⟨ho, rfl, rfl⟩
theorem Quiet.mk {x : St → α} {f : St → St} (hb : ∀ s, (f s).bases = s.bases) (hf : ∀ s, (f s).fragments = s.fragments) : Quiet (fun s => (.ok (x s), f s)) :=
  fun s => ⟨by simp, hb s, hf s⟩
theorem Quiet.getBase : Quiet (Heap.getBase a) := by
  intro s
  unfold Heap.getBase
  cases s.base a <;> exact ⟨by simp, rfl, rfl⟩

theorem Quiet.run (h : Quiet m) : Run Pl d ex k m s (fun _ s' => s'.bases = s.bases) := by
  have h1 := h s
  unfold Run
  cases hm : m s with
  | mk o t =>
    rw [hm] at h1
    cases o with
    | ok x => exact ⟨Adds.same h1.2.1 h1.2.2, h1.2.1⟩
    | err e => exact Adds.same h1.2.1 h1.2.2
    | panic e => exact Adds.same h1.2.1 h1.2.2
    | diverge => exact absurd rfl h1.1

theorem base_upd {f : Base → Base} {x : Addr} : ({ s with bases := s.bases.modify a f } : St).base x = if a = x then (s.base x).map f else s.base x := by
  show (s.bases.modify a f)[x]? = _
  rw [List.getElem?_modify]
  by_cases h : a = x
  · simp [h, St.base]
  · simp [h, St.base]

theorem Adds.upd {f : Base → Base} (hx : ex a)
    (hl : ∀ b, s.base a = some b → (f b).location = b.location ∧ (Made b → Made (f b)) ∧ (Fair b → Fair (f b)) ∧ (Unk (f b) → Unk b ∧ Pl.wt b = Pl.wt (f b) ∨ Pl.wt (f b) < k)) :
    Adds Pl ex k s { s with bases := s.bases.modify a f } where
  frag := fun _ _ h => h
  frame := fun x b hn hb => by
    rw [base_upd, if_neg fun (e : a = x) => hn (e ▸ hx)]; exact hb
  at_ := fun x b hb => by
    rw [base_upd]
    by_cases e : a = x
    · subst e
      rw [if_pos rfl, hb]
      exact ⟨f b, rfl, (hl b hb).1, (hl b hb).2.1⟩
    · rw [if_neg e]; exact ⟨b, hb, rfl, id⟩
  fresh := .inr fun y b hb hu => by
    rw [base_upd] at hb
    by_cases e : a = y
    · subst e
      rw [if_pos rfl] at hb
      obtain ⟨b0, h0, rfl⟩ := Option.map_eq_some_iff.1 hb
      exact ((hl b0 h0).2.2.2 hu).imp (fun h => ⟨b0, h0, h⟩) id
    · rw [if_neg e] at hb; exact .inl ⟨b, hb, hu, rfl⟩
  fair := fun h x b hb => by
    rw [base_upd] at hb
    by_cases e : a = x
    · subst e
      rw [if_pos rfl] at hb
      obtain ⟨b0, h0, rfl⟩ := Option.map_eq_some_iff.1 hb
      exact (hl b0 h0).2.2.1 (h a b0 h0)
    · rw [if_neg e] at hb; exact h x b hb

/-- Fields other than the location, the type and the shape. -/
theorem Run.upd {f : Base → Base} (hx : ex a) (hf : ∀ b, (f b).location = b.location ∧ (f b).shape = b.shape ∧ (f b).type = b.type) :
    Run Pl d ex k (Heap.updBase a f) s (fun _ s' => s'.base a = (s.base a).map f) := by
  refine ⟨Adds.upd hx fun b _ => ?_, ?_⟩
  · obtain ⟨h1, h2, h3⟩ := hf b
    refine ⟨h1, ?_, ?_, ?_⟩
    · unfold Made; rw [h2]; exact id
    · unfold Fair Made; rw [h2, h3]; exact id
    · unfold Unk Plan.wt; rw [h1, h2, h3]; exact fun h => .inl ⟨h, rfl⟩
  · exact base_upd.trans (if_pos rfl)

theorem not_unk_of_kind {b : Base} {sh : Shape} (h : b.shape = some sh) (hk : Kind sh ≠ "unknown") : ¬ Unk b := by
  rintro ⟨f, hf⟩; rw [h] at hf; cases hf; exact hk rfl

theorem Run.setShape {sh : Shape} (hx : ex a) (hk : Kind sh ≠ "unknown") (ht : ∀ b, s.base a = some b → Made b ∨ Kind (emptyShape b.type) ≠ "unknown") :
    Run Pl d ex k (GoRaml.setShape a sh) s (fun _ s' => s'.base a = (s.base a).map fun b => { b with shape := some sh }) := by
  refine ⟨Adds.upd hx fun b hb => ⟨rfl, fun _ => ⟨sh, rfl, hk⟩, fun hf _ => ?_, fun hu => absurd hu (not_unk_of_kind rfl hk)⟩, ?_⟩
  · rcases ht b hb with h | h
    · exact hf h
    · exact h
  · exact base_upd.trans (if_pos rfl)

theorem Run.putFragment {p : String} {f : FragRef} : Run Pl d ex k (GoRaml.putFragment p f) s (fun _ s' => s'.bases = s.bases ∧ ∃ f', getFragment s' p = some f') := by
  cases hg : OMap.get s.fragments p with
  | some f' => exact Run.of_eq (m' := M.ret ()) (by simp [GoRaml.putFragment, hg, M.ret]) (Run.ret ⟨rfl, f', hg⟩)
  | none =>
    have hn : ∀ q, getFragment ({ s with fragments := OMap.set s.fragments p f } : St) q = if q = p then some f else getFragment s q := fun q => OMap.get_set _ _ _ _
    refine Run.of_eq (m' := fun s => (.ok (), { s with fragments := OMap.set s.fragments p f })) (by simp [GoRaml.putFragment, hg]) ?_
    refine ⟨{ frag := fun q g h => ?_, frame := fun _ _ _ h => h, at_ := fun _ b h => ⟨b, h, rfl, id⟩, fresh := .inr fun y b h hu => .inl ⟨b, h, hu, rfl⟩, fair := fun h => h }, rfl, f, ?_⟩
    · rw [hn]
      by_cases e : q = p
      · subst e; rw [show getFragment s q = none from hg] at h; cases h
      · rw [if_neg e]; exact h
    · rw [hn, if_pos rfl]

theorem left_lt {p : String} (hp : E.file p ≠ none) (h : ∀ p f, getFragment s p = some f → getFragment s' p = some f) (hn : getFragment s p = none) {f : FragRef}
    (hf : getFragment s' p = some f) : Pl.left s' < Pl.left s := missing_lt (fun p f hp => ⟨f, h p f hp⟩) (Pl.inFiles p hp) hn hf

end

end GoRaml.Halt
