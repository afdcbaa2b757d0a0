import Verif.Lemmas.Tame
import Verif.Spec.Apart

/-!
# Parsed types share no parts: the invariant and the operations on the model

`Mark` is a point in the growth of the model.  A computation leaves the status of what is below its mark as it is: it attaches only parts that it has made.
-/

namespace GoRaml.Apart

open GoRaml GoRaml.Spec

/-- How many types, maps of properties and maps of pattern properties there are. -/
structure Mark where
  bases : Nat
  pmaps : Nat
  ppmaps : Nat

/-- The mark of a state. -/
def mark (s : St) : Mark := ⟨s.bases.length, s.pmaps.length, s.ppmaps.length⟩

/-- The order of marks. -/
structure Mark.Le (k l : Mark) : Prop where
  bases : k.bases ≤ l.bases
  pmaps : k.pmaps ≤ l.pmaps
  ppmaps : k.ppmaps ≤ l.ppmaps

theorem Mark.Le.refl (k : Mark) : k.Le k := ⟨Nat.le_refl _, Nat.le_refl _, Nat.le_refl _⟩

theorem Mark.Le.trans {k l m : Mark} (h : k.Le l) (h' : l.Le m) : k.Le m :=
  ⟨Nat.le_trans h.1 h'.1, Nat.le_trans h.2 h'.2, Nat.le_trans h.3 h'.3⟩

/-- The invariant. -/
structure I (s : St) : Prop where
  share : ShareNothing s
  held : ∀ p x, HeldAt s p x → x < s.bases.length
  referred : ∀ x, ReferredTo s x → x < s.bases.length
  maps : ∀ u m, UsedFor s u m → m < s.pmaps.length
  patterns : ∀ a m, PatternsIn s a m → m < s.ppmaps.length
  members : ∀ a b j e, s.base a = some b → b.shape = some (.union (some j) e) → j < s.slices.length
  parents : ∀ a b j, s.base a = some b → b.inherits = some j → j < s.slices.length
  fresh : ∀ a b, s.base a = some b → b.unwrapped = false ∧ b.visited = false
  names : ∀ m ∈ s.pmaps, (m.map (·.1)).Nodup
  patNames : ∀ m ∈ s.ppmaps, (m.map (·.1)).Nodup

/-- A library declares the type `x`. -/
def Head (s : St) (x : Addr) : Prop := ∃ l ∈ s.libs, ∃ e ∈ l.types, e.2 = x

/-- Nothing below the mark gets a new status. -/
structure R (k : Mark) (s s' : St) : Prop where
  grows : (mark s).Le (mark s')
  held : ∀ p x, x < k.bases → HeldAt s' p x → HeldAt s p x
  referred : ∀ x, x < k.bases → ReferredTo s' x → ReferredTo s x
  maps : ∀ u m, m < k.pmaps → UsedFor s' u m → UsedFor s u m
  patterns : ∀ a m, m < k.ppmaps → PatternsIn s' a m → PatternsIn s a m
  heads : ∀ x, Head s x → Head s' x

theorem R.refl (k : Mark) (s : St) : R k s s := ⟨.refl _, fun _ _ _ h => h, fun _ _ h => h, fun _ _ _ h => h, fun _ _ _ h => h, fun _ h => h⟩

theorem R.trans {k : Mark} {s s' s'' : St} (h : R k s s') (h' : R k s' s'') : R k s s'' :=
  ⟨h.grows.trans h'.grows, fun p x l e => h.held p x l (h'.held p x l e), fun x l e => h.referred x l (h'.referred x l e), fun u m l e => h.maps u m l (h'.maps u m l e),
    fun a m l e => h.patterns a m l (h'.patterns a m l e), fun x e => h'.heads x (h.heads x e)⟩

theorem R.mono {k l : Mark} {s s' : St} (h : R l s s') (hk : k.Le l) : R k s s' :=
  ⟨h.grows, fun p x e => h.held p x (Nat.lt_of_lt_of_le e hk.1), fun x e => h.referred x (Nat.lt_of_lt_of_le e hk.1), fun u m e => h.maps u m (Nat.lt_of_lt_of_le e hk.2),
    fun a m e => h.patterns a m (Nat.lt_of_lt_of_le e hk.3), h.heads⟩

/-! ## The logic -/

/-- The computation keeps the invariant, and what is below `k`. -/
def Own {α : Type} (k : Mark) (m : M St α) (s : St) (Q : α → St → Prop) : Prop := Tame.Tame (fun _ => True) I (R k) m s Q

section logic
variable {α β : Type} {k : Mark} {s : St}

theorem Own.of {m : M St α} {x : α} {s' : St} {Q : α → St → Prop} (e : m s = (.ok x, s')) (hi : I s') (hr : R k s s') (hq : Q x s') : Own k m s Q := Tame.Tame.of e hi hr hq

theorem Own.bind {m : M St α} {f : α → M St β} {Q : α → St → Prop} {Q' : β → St → Prop} (h : Own k m s Q)
    (h' : ∀ x s', I s' → R k s s' → Q x s' → Own k (f x) s' Q') : Own k (M.bind m f) s Q' :=
  Tame.Tame.bind' h h' (fun _ h => h) fun _ _ => .trans

theorem Own.post {m : M St α} {Q Q' : α → St → Prop} (h : Own k m s Q) (hq : ∀ x s', I s' → R k s s' → Q x s' → Q' x s') : Own k m s Q' := Tame.Tame.post h hq

/-- A call, seen from a caller with an older mark. -/
theorem Own.call {m : M St α} {Q : α → St → Prop} (h : Own (mark s) m s Q) (hk : k.Le (mark s)) : Own k m s fun x s' => Q x s' ∧ R (mark s) s s' :=
  Tame.Tame.move (R1 := R (mark s)) (Tame.Tame.post h fun _ _ _ r q => ⟨q, r⟩) fun _ _ r => r.mono hk

theorem Own.ret {x : α} {Q : α → St → Prop} (hi : I s) (hq : Q x s) : Own k (M.ret x) s Q := .of rfl hi (.refl k s) hq

theorem Own.lift {o : Out α} {Q : α → St → Prop} (hi : I s) (hq : ∀ x, o = .ok x → Q x s) : Own k (M.lift o) s Q :=
  Tame.Tame.lift (.refl k s) hi (fun _ _ => trivial) hq

theorem Own.err {e : String} {Q : α → St → Prop} (hi : I s) : Own k (M.err e : M St α) s Q := ⟨hi, .refl k s, trivial⟩

theorem Own.panic {e : String} {Q : α → St → Prop} (hi : I s) : Own k (M.panic e : M St α) s Q := ⟨hi, .refl k s, trivial⟩

theorem Own.diverge {Q : α → St → Prop} (hi : I s) : Own k (M.diverge : M St α) s Q := ⟨hi, .refl k s, trivial⟩

theorem Own.attempt {m : M St α} {Q : α → St → Prop} (h : Own k m s Q) : Own k (M.attempt m) s fun _ _ => True := Tame.Tame.post (Tame.Tame.attempt h) fun _ _ _ _ _ => trivial

theorem Own.congr {m m' : M St α} {Q : α → St → Prop} (e : m' s = m s) (h : Own k m s Q) : Own k m' s Q := Tame.Tame.congr e h

theorem Own.getBase {a : Addr} (hi : I s) : Own k (Heap.getBase a) s fun b s' => s' = s ∧ s.base a = some b := by
  unfold Heap.getBase
  cases h : s.base a with
  | none => exact .congr (m := M.panic "nil pointer dereference") (by simp [h, M.panic]) (.panic hi)
  | some b => exact .of (x := b) (s' := s) (by simp [h]) hi (.refl k s) ⟨rfl, rfl⟩

end logic

/-! ## Status -/

/-- No type holds `x`, and none refers to it. -/
structure Loose (s : St) (x : Addr) : Prop where
  there : x < s.bases.length
  held : ∀ p, ¬ HeldAt s p x
  referred : ¬ ReferredTo s x

theorem Loose.keep {s s' : St} {x : Addr} (h : Loose s x) (r : R (mark s) s s') : Loose s' x :=
  ⟨Nat.lt_of_lt_of_le h.there r.grows.1, fun p e => h.held p (r.held p x h.there e), fun e => h.referred (r.referred x h.there e)⟩

/-- A type made above the mark. -/
def New (k : Mark) (s : St) (x : Addr) : Prop := k.bases ≤ x ∧ Loose s x

theorem New.keep {k : Mark} {s s' : St} {x : Addr} (h : New k s x) (r : R (mark s) s s') : New k s' x := ⟨h.1, h.2.keep r⟩

theorem New.mono {k l : Mark} {s : St} {x : Addr} (h : New l s x) (hk : k.Le l) : New k s x := ⟨Nat.le_trans hk.1 h.1, h.2⟩

/-- A type made above the mark, held at that place only, if at all. -/
structure Mine (k : Mark) (s : St) (p : Spot) (x : Addr) : Prop where
  new : k.bases ≤ x
  there : x < s.bases.length
  held : ∀ q, HeldAt s q x → q = p
  referred : ¬ ReferredTo s x

theorem Mine.keep {k : Mark} {s s' : St} {p : Spot} {x : Addr} (h : Mine k s p x) (r : R (mark s) s s') : Mine k s' p x :=
  ⟨h.new, Nat.lt_of_lt_of_le h.there r.grows.1, fun q e => h.held q (r.held q x h.there e), fun e => h.referred (r.referred x h.there e)⟩

theorem New.mine {k : Mark} {s : St} {x : Addr} (h : New k s x) (p : Spot) : Mine k s p x := ⟨h.1, h.2.there, fun q e => absurd e (h.2.held q), h.2.referred⟩

/-- A map of properties made above the mark, used for nothing else. -/
structure MineMap (k : Mark) (s : St) (u : MapUse) (m : Nat) : Prop where
  new : k.pmaps ≤ m
  there : m < s.pmaps.length
  used : ∀ w, UsedFor s w m → w = u

theorem MineMap.keep {k : Mark} {s s' : St} {u : MapUse} {m : Nat} (h : MineMap k s u m) (r : R (mark s) s s') : MineMap k s' u m :=
  ⟨h.new, Nat.lt_of_lt_of_le h.there r.grows.2, fun w e => h.used w (r.maps w m h.there e)⟩

/-- A map of pattern properties made above the mark, used for nothing else. -/
structure MinePat (k : Mark) (s : St) (a : Addr) (m : Nat) : Prop where
  new : k.ppmaps ≤ m
  there : m < s.ppmaps.length
  used : ∀ w, PatternsIn s w m → w = a

theorem MinePat.keep {k : Mark} {s s' : St} {a : Addr} {m : Nat} (h : MinePat k s a m) (r : R (mark s) s s') : MinePat k s' a m :=
  ⟨h.new, Nat.lt_of_lt_of_le h.there r.grows.3, fun w e => h.used w (r.patterns w m h.there e)⟩

/-! ## Operations -/

section ops
variable {k : Mark} {s : St}

/-- What may be in the base `a` when it is assigned. -/
structure BaseOK (k : Mark) (s : St) (a : Addr) (b b' : Base) : Prop where
  items : ∀ f x, b'.shape = some (.array f) → f.items = some x → b.shape = b'.shape ∨ Mine k s (.items a) x
  members : ∀ j e, b'.shape = some (.union (some j) e) → b.shape = b'.shape ∨ j < s.slices.length ∧ ∀ l, s.slices[j]? = some l → l.Nodup ∧ ∀ x ∈ l, New k s x
  properties : ∀ f m, b'.shape = some (.object f) → f.properties = some m → b.shape = b'.shape ∨ MineMap k s (.properties a) m
  patterns : ∀ f m, b'.shape = some (.object f) → f.patternProperties = some m → b.shape = b'.shape ∨ MinePat k s a m
  facets : ∀ m, b'.facetDefs = some m → b.facetDefs = b'.facetDefs ∨ MineMap k s (.facets a) m
  «alias» : ∀ x, b'.alias = some x → b.alias = b'.alias ∨ ReferredTo s x
  inherits : ∀ j, b'.inherits = some j → b.inherits = b'.inherits ∨ j < s.slices.length ∧ ∀ l, s.slices[j]? = some l → ∀ x ∈ l, ReferredTo s x ∨ New k s x
  /-- Either the shape or the parents and facets are new. -/
  one : b.shape = b'.shape ∨ b.inherits = b'.inherits ∧ b.facetDefs = b'.facetDefs
  fresh : b'.unwrapped = b.unwrapped ∧ b'.visited = b.visited

/-- What the base `b` at `a` holds. -/
inductive BHeld (s : St) (a : Addr) (b : Base) : Spot → Addr → Prop where
  | items {x : Addr} {f : ArrayF} : b.shape = some (.array f) → f.items = some x → BHeld s a b (.items a) x
  | member {x : Addr} {e : Option (List GoVal)} {j i : Nat} {l : List Addr} : b.shape = some (.union (some j) e) → s.slices[j]? = some l → l[i]? = some x →
      BHeld s a b (.member a i) x

theorem BHeld.held {a : Addr} {b : Base} {p : Spot} {x : Addr} (h : BHeld s a b p x) (hb : s.base a = some b) : HeldAt s p x := by
  cases h with
  | items h1 h2 => exact .items hb h1 h2
  | member h1 h2 h3 => exact .member hb h1 h2 h3

theorem BHeld.same {a : Addr} {b b' : Base} {p : Spot} {x : Addr} (h : BHeld s a b' p x) (hs : b.shape = b'.shape) : BHeld s a b p x := by
  cases h with
  | items h1 h2 => exact .items (hs.trans h1) h2
  | member h1 h2 h3 => exact .member (hs.trans h1) h2 h3

/-- What the base `b` refers to. -/
inductive BRef (s : St) (b : Base) : Addr → Prop where
  | alias {x : Addr} : b.alias = some x → BRef s b x
  | parent {x : Addr} {j : Nat} {l : List Addr} : b.inherits = some j → s.slices[j]? = some l → x ∈ l → BRef s b x

theorem BRef.referred {a : Addr} {b : Base} {x : Addr} (h : BRef s b x) (hb : s.base a = some b) : ReferredTo s x := by
  cases h with
  | «alias» h => exact .alias hb h
  | parent h1 h2 h3 => exact .parent hb h1 h2 h3

/-- The maps of properties that the base `b` at `a` uses. -/
inductive BUsed (a : Addr) (b : Base) : MapUse → Nat → Prop where
  | properties {f : ObjectF} {m : Nat} : b.shape = some (.object f) → f.properties = some m → BUsed a b (.properties a) m
  | facets {m : Nat} : b.facetDefs = some m → BUsed a b (.facets a) m

theorem BUsed.used {a : Addr} {b : Base} {u : MapUse} {m : Nat} (h : BUsed a b u m) (hb : s.base a = some b) : UsedFor s u m := by
  cases h with
  | properties h1 h2 => exact .properties hb h1 h2
  | facets h => exact .facets hb h

/-- Reading a base after an assignment. -/
theorem base_modify {a c : Addr} {f : Base → Base} {b : Base} (h : (s.bases.modify a f)[c]? = some b) :
    s.base c = some b ∧ c ≠ a ∨ c = a ∧ ∃ b0, s.base a = some b0 ∧ b = f b0 := by
  rw [List.getElem?_modify] at h
  by_cases e : a = c
  · subst e
    simp only [if_true] at h
    cases hb : s.bases[a]? with
    | none => rw [hb] at h; cases h
    | some b0 => rw [hb] at h; cases h; exact .inr ⟨rfl, b0, hb, rfl⟩
  · simp only [e, if_false, Option.map_id_fun', id_eq] at h
    exact .inl ⟨by simpa [St.base] using h, fun h => e h.symm⟩

/-- The state after an assignment. -/
abbrev updated (s : St) (a : Addr) (f : Base → Base) : St := { s with bases := s.bases.modify a f }

theorem held_upd {a : Addr} {f : Base → Base} {p : Spot} {x : Addr} (h : HeldAt (updated s a f) p x) :
    HeldAt s p x ∨ ∃ b, s.base a = some b ∧ BHeld s a (f b) p x := by
  cases h with
  | items h1 h2 h3 =>
    rcases base_modify h1 with ⟨h, _⟩ | ⟨rfl, b0, hb, rfl⟩
    · exact .inl (.items h h2 h3)
    · exact .inr ⟨b0, hb, .items h2 h3⟩
  | member h1 h2 h3 h4 =>
    rcases base_modify h1 with ⟨h, _⟩ | ⟨rfl, b0, hb, rfl⟩
    · exact .inl (.member h h2 h3 h4)
    · exact .inr ⟨b0, hb, .member h2 h3 h4⟩
  | property h1 h2 => exact .inl (.property h1 h2)
  | pattern h1 h2 => exact .inl (.pattern h1 h2)

theorem referred_upd {a : Addr} {f : Base → Base} {x : Addr} (h : ReferredTo (updated s a f) x) : ReferredTo s x ∨ ∃ b, s.base a = some b ∧ BRef s (f b) x := by
  cases h with
  | type h1 h2 => exact .inl (.type h1 h2)
  | annotationType h1 h2 => exact .inl (.annotationType h1 h2)
  | dataType h1 h2 => exact .inl (.dataType h1 h2)
  | «alias» h1 h2 =>
    rcases base_modify h1 with ⟨h, _⟩ | ⟨rfl, b0, hb, rfl⟩
    · exact .inl (.alias h h2)
    · exact .inr ⟨b0, hb, .alias h2⟩
  | parent h1 h2 h3 h4 =>
    rcases base_modify h1 with ⟨h, _⟩ | ⟨rfl, b0, hb, rfl⟩
    · exact .inl (.parent h h2 h3 h4)
    · exact .inr ⟨b0, hb, .parent h2 h3 h4⟩

theorem used_upd {a : Addr} {f : Base → Base} {u : MapUse} {m : Nat} (h : UsedFor (updated s a f) u m) : UsedFor s u m ∨ ∃ b, s.base a = some b ∧ BUsed a (f b) u m := by
  cases h with
  | properties h1 h2 h3 =>
    rcases base_modify h1 with ⟨h, _⟩ | ⟨rfl, b0, hb, rfl⟩
    · exact .inl (.properties h h2 h3)
    · exact .inr ⟨b0, hb, .properties h2 h3⟩
  | facets h1 h2 =>
    rcases base_modify h1 with ⟨h, _⟩ | ⟨rfl, b0, hb, rfl⟩
    · exact .inl (.facets h h2)
    · exact .inr ⟨b0, hb, .facets h2⟩

theorem patterns_upd {a c : Addr} {f : Base → Base} {m : Nat} (h : PatternsIn (updated s a f) c m) :
    PatternsIn s c m ∨ c = a ∧ ∃ b g, s.base a = some b ∧ (f b).shape = some (.object g) ∧ g.patternProperties = some m := by
  obtain ⟨b, g, h1, h2, h3⟩ := h
  rcases base_modify h1 with ⟨h, _⟩ | ⟨rfl, b0, hb, rfl⟩
  · exact .inl ⟨b, g, h, h2, h3⟩
  · exact .inr ⟨rfl, b0, g, hb, h2, h3⟩

section status
variable {a : Addr} {b b' : Base} (hb : s.base a = some b) (ok : BaseOK k s a b b')
include hb ok

/-- A part of the new base was there, is the one item, or is new. -/
theorem BaseOK.held {p : Spot} {x : Addr} (h : BHeld s a b' p x) :
    HeldAt s p x ∨ Mine k s p x ∧ (p = .items a ∨ New k s x ∧ b.shape ≠ b'.shape ∧
      ∃ j e l i, b'.shape = some (.union (some j) e) ∧ s.slices[j]? = some l ∧ l.Nodup ∧ l[i]? = some x ∧ p = .member a i) := by
  by_cases e : b.shape = b'.shape
  · exact .inl ((h.same e).held hb)
  · cases h with
    | items h1 h2 => exact .inr ⟨(ok.items _ _ h1 h2).resolve_left e, .inl rfl⟩
    | member h1 h2 h3 =>
      obtain ⟨_, h5⟩ := (ok.members _ _ h1).resolve_left e
      obtain ⟨h6, h7⟩ := h5 _ h2
      have hn := h7 _ (List.mem_of_getElem? h3)
      exact .inr ⟨hn.mine _, .inr ⟨hn, e, _, _, _, _, h1, h2, h6, h3, rfl⟩⟩

theorem BaseOK.refs {x : Addr} (h : BRef s b' x) : ReferredTo s x ∨ New k s x ∧ b.inherits ≠ b'.inherits := by
  cases h with
  | «alias» h =>
    rcases ok.alias _ h with e | e
    · exact .inl (.alias hb (e.trans h))
    · exact .inl e
  | parent h1 h2 h3 =>
    rcases ok.inherits _ h1 with e | ⟨_, e⟩
    · exact .inl (.parent hb (e.trans h1) h2 h3)
    · by_cases e' : b.inherits = b'.inherits
      · exact .inl (.parent hb (e'.trans h1) h2 h3)
      · exact (e _ h2 _ h3).imp id fun h => ⟨h, e'⟩

theorem BaseOK.maps {u : MapUse} {m : Nat} (h : BUsed a b' u m) : UsedFor s u m ∨ MineMap k s u m := by
  cases h with
  | properties h1 h2 =>
    rcases ok.properties _ _ h1 h2 with e | e
    · exact .inl (.properties hb (e.trans h1) h2)
    · exact .inr e
  | facets h =>
    rcases ok.facets _ h with e | e
    · exact .inl (.facets hb (e.trans h))
    · exact .inr e

end status

theorem upd_ok {a : Addr} {f : Base → Base} (hi : I s) (hf : ∀ b, s.base a = some b → BaseOK k s a b (f b)) : I (updated s a f) ∧ R k s (updated s a f) := by
  have lb : (updated s a f).bases.length = s.bases.length := by simp
  -- held
  have heldLt : ∀ p x, HeldAt (updated s a f) p x → x < s.bases.length := fun p x h => by
    rcases held_upd h with h | ⟨b, hb, h⟩
    · exact hi.held _ _ h
    · exact ((hf b hb).held hb h).elim (hi.held _ _) fun h => h.1.there
  have refLt : ∀ x, ReferredTo (updated s a f) x → x < s.bases.length := fun x h => by
    rcases referred_upd h with h | ⟨b, hb, h⟩
    · exact hi.referred _ h
    · exact ((hf b hb).refs hb h).elim (hi.referred _) fun h => h.1.2.there
  refine ⟨⟨⟨fun p q x hp hq => ?_, fun p x hp hr => ?_, fun u w m hu hw => ?_, fun c c' m hc hc' => ?_⟩, fun p x h => lb ▸ heldLt p x h, fun x h => lb ▸ refLt x h, fun u m h => ?_,
    fun c m h => ?_, fun c b j e hb hs => ?_, fun c b j hb hs => ?_, fun c b hb => ?_, hi.names, hi.patNames⟩,
    ⟨⟨by simp [mark], Nat.le_refl _, Nat.le_refl _⟩, fun p x hx h => ?_, fun x hx h => ?_, fun u m hm h => ?_, fun c m hm h => ?_, fun _ h => h⟩⟩
  · rcases held_upd hp with hp | ⟨b, hb, hp⟩ <;> rcases held_upd hq with hq | ⟨b2, hb2, hq⟩
    · exact hi.share.once _ _ _ hp hq
    · rcases (hf b2 hb2).held hb2 hq with hq | ⟨hq, _⟩
      · exact hi.share.once _ _ _ hp hq
      · exact hq.held _ hp
    · rcases (hf b hb).held hb hp with hp | ⟨hp, _⟩
      · exact hi.share.once _ _ _ hp hq
      · exact (hp.held _ hq).symm
    · cases hb.symm.trans hb2
      rcases (hf b hb).held hb hp with hp' | ⟨hp', hp2⟩ <;> rcases (hf b hb).held hb hq with hq' | ⟨hq', hq2⟩
      · exact hi.share.once _ _ _ hp' hq'
      · exact hq'.held _ hp'
      · exact (hp'.held _ hq').symm
      · rcases hp2 with rfl | ⟨_, _, j, e, l, i, h1, h2, h3, h4, rfl⟩ <;> rcases hq2 with rfl | ⟨_, _, j', e', l', i', h1', h2', h3', h4', rfl⟩
        · rfl
        · cases hp with
          | items h5 _ => cases h5.symm.trans h1'
        · cases hq with
          | items h5 _ => cases h5.symm.trans h1
        · cases h1.symm.trans h1'
          cases h2.symm.trans h2'
          rw [(List.getElem?_inj (List.getElem?_eq_some_iff.1 h4).1 h3).1 (h4.trans h4'.symm)]
  · rcases held_upd hp with hp | ⟨b, hb, hp⟩ <;> rcases referred_upd hr with hr | ⟨b2, hb2, hr⟩
    · exact hi.share.parts _ _ hp hr
    · rcases (hf b2 hb2).refs hb2 hr with hr | ⟨hr, _⟩
      · exact hi.share.parts _ _ hp hr
      · exact hr.2.held _ hp
    · rcases (hf b hb).held hb hp with hp | ⟨hp, _⟩
      · exact hi.share.parts _ _ hp hr
      · exact hp.referred hr
    · cases hb.symm.trans hb2
      rcases (hf b hb).refs hb hr with hr | ⟨hr, hne⟩
      · rcases (hf b hb).held hb hp with hp | ⟨hp, _⟩
        · exact hi.share.parts _ _ hp hr
        · exact hp.referred hr
      · exact hr.2.held _ ((hp.same ((hf b hb).one.resolve_right fun h => hne h.1)).held hb)
  · rcases used_upd hu with hu | ⟨b, hb, hu⟩ <;> rcases used_upd hw with hw | ⟨b2, hb2, hw⟩
    · exact hi.share.maps _ _ _ hu hw
    · rcases (hf b2 hb2).maps hb2 hw with hw | hw
      · exact hi.share.maps _ _ _ hu hw
      · exact hw.used _ hu
    · rcases (hf b hb).maps hb hu with hu | hu
      · exact hi.share.maps _ _ _ hu hw
      · exact (hu.used _ hw).symm
    · cases hb.symm.trans hb2
      have key : ∀ {u w : MapUse} {m : Nat}, BUsed a (f b) u m → BUsed a (f b) w m → UsedFor s u m → u = w := fun hu hw h => by
        rcases (hf b hb).maps hb hw with hw | hw
        · exact hi.share.maps _ _ _ h hw
        · exact hw.used _ h
      rcases (hf b hb).one with e | ⟨_, e⟩
      · cases hu with
        | properties h1 h2 => exact key (.properties h1 h2) hw (.properties hb (e.trans h1) h2)
        | facets h =>
          cases hw with
          | properties h1 h2 => exact (key (.properties h1 h2) (.facets h) (.properties hb (e.trans h1) h2)).symm
          | facets _ => rfl
      · cases hu with
        | facets h => exact key (.facets h) hw (.facets hb (e.trans h))
        | properties h1 h2 =>
          cases hw with
          | facets h => exact (key (.facets h) (.properties h1 h2) (.facets hb (e.trans h))).symm
          | properties _ _ => rfl
  · rcases patterns_upd hc with hc1 | ⟨e1, b, g, hb, h1, h2⟩ <;> rcases patterns_upd hc' with hc2 | ⟨e2, b', g', hb', h1', h2'⟩
    · exact hi.share.patterns _ _ _ hc1 hc2
    · rcases (hf b' hb').patterns _ _ h1' h2' with e | e
      · exact hi.share.patterns _ _ _ hc1 (e2 ▸ ⟨b', g', hb', e.trans h1', h2'⟩)
      · exact (e.used _ hc1).trans e2.symm
    · rcases (hf b hb).patterns _ _ h1 h2 with e | e
      · exact hi.share.patterns _ _ _ (e1 ▸ ⟨b, g, hb, e.trans h1, h2⟩) hc2
      · exact e1.trans (e.used _ hc2).symm
    · exact e1.trans e2.symm
  · rcases used_upd h with h | ⟨b, hb, h⟩
    · exact hi.maps _ _ h
    · exact ((hf b hb).maps hb h).elim (hi.maps _ _) fun h => h.there
  · rcases patterns_upd h with h | ⟨rfl, b, g, hb, h1, h2⟩
    · exact hi.patterns _ _ h
    · rcases (hf b hb).patterns _ _ h1 h2 with e | e
      · exact hi.patterns _ _ ⟨b, g, hb, e.trans h1, h2⟩
      · exact e.there
  · rcases base_modify hb with ⟨h, _⟩ | ⟨rfl, b0, hb0, rfl⟩
    · exact hi.members _ _ _ _ h hs
    · exact ((hf b0 hb0).members _ _ hs).elim (fun e => hi.members _ _ _ _ hb0 (e.trans hs)) fun h => h.1
  · rcases base_modify hb with ⟨h, _⟩ | ⟨rfl, b0, hb0, rfl⟩
    · exact hi.parents _ _ _ h hs
    · exact ((hf b0 hb0).inherits _ hs).elim (fun e => hi.parents _ _ _ hb0 (e.trans hs)) fun h => h.1
  · rcases base_modify hb with ⟨h, _⟩ | ⟨rfl, b0, hb0, rfl⟩
    · exact hi.fresh _ _ h
    · rw [(hf b0 hb0).fresh.1, (hf b0 hb0).fresh.2]; exact hi.fresh _ _ hb0
  · rcases held_upd h with h | ⟨b, hb, h⟩
    · exact h
    · exact ((hf b hb).held hb h).elim id fun h => absurd h.1.new (Nat.not_le.2 hx)
  · rcases referred_upd h with h | ⟨b, hb, h⟩
    · exact h
    · exact ((hf b hb).refs hb h).elim id fun h => absurd h.1.1 (Nat.not_le.2 hx)
  · rcases used_upd h with h | ⟨b, hb, h⟩
    · exact h
    · exact ((hf b hb).maps hb h).elim id fun h => absurd h.new (Nat.not_le.2 hm)
  · rcases patterns_upd h with h | ⟨rfl, b, g, hb, h1, h2⟩
    · exact h
    · rcases (hf b hb).patterns _ _ h1 h2 with e | e
      · exact ⟨b, g, hb, e.trans h1, h2⟩
      · exact absurd e.new (Nat.not_le.2 hm)

theorem Own.upd {a : Addr} {f : Base → Base} (hi : I s) (hf : ∀ b, s.base a = some b → BaseOK k s a b (f b)) :
    Own k (Heap.updBase a f) s fun _ s' => s' = updated s a f :=
  .of (x := ()) (s' := updated s a f) rfl (upd_ok hi hf).1 (upd_ok hi hf).2 rfl

/-- An assignment that leaves parts and references. -/
structure Quiet (b b' : Base) : Prop where
  shape : b'.shape = b.shape
  facets : b'.facetDefs = b.facetDefs
  «alias» : b'.alias = b.alias
  inherits : b'.inherits = b.inherits
  unwrapped : b'.unwrapped = b.unwrapped
  visited : b'.visited = b.visited

theorem Quiet.ok {a : Addr} {b b' : Base} (h : Quiet b b') : BaseOK k s a b b' :=
  ⟨fun _ _ _ _ => .inl h.shape.symm, fun _ _ _ => .inl h.shape.symm, fun _ _ _ _ => .inl h.shape.symm, fun _ _ _ _ => .inl h.shape.symm, fun _ _ => .inl h.facets.symm,
    fun _ _ => .inl h.alias.symm, fun _ _ => .inl h.inherits.symm, .inl h.shape.symm, h.unwrapped, h.visited⟩

/-- The new state has at most the parts and references of the old one, and new ones. -/
theorem I.step {s' : St} (hi : I s) (hg : (mark s).Le (mark s')) (hs : s.slices.length ≤ s'.slices.length) (P : Addr → Spot) (U : MapUse)
    (hH : ∀ p x, HeldAt s' p x → HeldAt s p x ∨ New k s x ∧ p = P x) (hR : ∀ x, ReferredTo s' x → ReferredTo s x ∨ New k s x)
    (hHR : (∀ p x, HeldAt s' p x → HeldAt s p x) ∨ ∀ x, ReferredTo s' x → ReferredTo s x)
    (hM : ∀ u m, UsedFor s' u m → UsedFor s u m ∨ k.pmaps ≤ m ∧ s.pmaps.length ≤ m ∧ m < s'.pmaps.length ∧ u = U) (hP : ∀ a m, PatternsIn s' a m → PatternsIn s a m)
    (hB : ∀ a b, s'.base a = some b → s.base a = some b ∨ b.shape = none ∧ b.inherits = none ∧ b.unwrapped = false ∧ b.visited = false)
    (hN : ∀ x, Head s x → Head s' x) (hn1 : ∀ m ∈ s'.pmaps, (m.map (·.1)).Nodup) (hn2 : ∀ m ∈ s'.ppmaps, (m.map (·.1)).Nodup) : I s' ∧ R k s s' := by
  refine ⟨⟨⟨fun p q x hp hq => ?_, fun p x hp hr => ?_, fun u w m hu hw => ?_, fun c c' m hc hc' => hi.share.patterns _ _ _ (hP _ _ hc) (hP _ _ hc')⟩, fun p x h => ?_, fun x h => ?_,
    fun u m h => ?_, fun c m h => Nat.lt_of_lt_of_le (hi.patterns _ _ (hP _ _ h)) hg.3, fun c b j e hb hs' => ?_, fun c b j hb hs' => ?_, fun c b hb => ?_, hn1, hn2⟩,
    ⟨hg, fun p x hx h => ?_, fun x hx h => ?_, fun u m hm h => ?_, fun c m _ h => hP _ _ h, hN⟩⟩
  · rcases hH _ _ hp with hp | ⟨hn, hp⟩ <;> rcases hH _ _ hq with hq | ⟨hn', hq⟩
    · exact hi.share.once _ _ _ hp hq
    · exact absurd hp (hn'.2.held _)
    · exact absurd hq (hn.2.held _)
    · rw [hp, hq]
  · rcases hHR with h | h
    · have hp := h _ _ hp
      rcases hR _ hr with hr | hr
      · exact hi.share.parts _ _ hp hr
      · exact hr.2.held _ hp
    · have hr := h _ hr
      rcases hH _ _ hp with hp | ⟨hn, _⟩
      · exact hi.share.parts _ _ hp hr
      · exact hn.2.referred hr
  · rcases hM _ _ hu with hu | ⟨_, hu1, _, hu⟩ <;> rcases hM _ _ hw with hw | ⟨_, hw1, _, hw⟩
    · exact hi.share.maps _ _ _ hu hw
    · exact absurd (hi.maps _ _ hu) (Nat.not_lt.2 hw1)
    · exact absurd (hi.maps _ _ hw) (Nat.not_lt.2 hu1)
    · rw [hu, hw]
  · exact Nat.lt_of_lt_of_le ((hH _ _ h).elim (hi.held _ _) fun h => h.1.2.there) hg.1
  · exact Nat.lt_of_lt_of_le ((hR _ h).elim (hi.referred _) fun h => h.2.there) hg.1
  · rcases hM _ _ h with h | h
    · exact Nat.lt_of_lt_of_le (hi.maps _ _ h) hg.2
    · exact h.2.2.1
  · rcases hB _ _ hb with h | h
    · exact Nat.lt_of_lt_of_le (hi.members _ _ _ _ h hs') hs
    · rw [h.1] at hs'; cases hs'
  · rcases hB _ _ hb with h | h
    · exact Nat.lt_of_lt_of_le (hi.parents _ _ _ h hs') hs
    · rw [h.2.1] at hs'; cases hs'
  · rcases hB _ _ hb with h | h
    · exact hi.fresh _ _ h
    · exact h.2.2
  · exact (hH _ _ h).elim id fun h => absurd h.1.1 (Nat.not_le.2 hx)
  · exact (hR _ h).elim id fun h => absurd h.1 (Nat.not_le.2 hx)
  · exact (hM _ _ h).elim id fun h => absurd h.1 (Nat.not_le.2 hm)

/-- Same bases, maps and slices. -/
theorem held_same {s' : St} (h1 : s'.bases = s.bases) (h2 : s'.pmaps = s.pmaps) (h3 : s'.ppmaps = s.ppmaps) (h4 : s'.slices = s.slices) {p : Spot} {x : Addr}
    (h : HeldAt s' p x) : HeldAt s p x := by
  have e : ∀ a, s'.base a = s.base a := fun a => by simp [St.base, h1]
  cases h with
  | items k1 k2 k3 => exact .items ((e _).symm.trans k1) k2 k3
  | member k1 k2 k3 k4 => exact .member ((e _).symm.trans k1) k2 (h4 ▸ k3) k4
  | property k1 k2 => exact .property (h2 ▸ k1) k2
  | pattern k1 k2 => exact .pattern (h3 ▸ k1) k2

theorem referred_same {s' : St} (h1 : s'.bases = s.bases) (h4 : s'.slices = s.slices) {x : Addr} (h : ReferredTo s' x) : ReferredTo s x ∨
    (∃ l ∈ s'.libs, ∃ e, (e ∈ l.types ∨ e ∈ l.annotationTypes) ∧ e.2 = x) ∨ ∃ d ∈ s'.dts, d.shape = some x := by
  have e : ∀ a, s'.base a = s.base a := fun a => by simp [St.base, h1]
  cases h with
  | type k1 k2 => exact .inr (.inl ⟨_, k1, _, .inl k2, rfl⟩)
  | annotationType k1 k2 => exact .inr (.inl ⟨_, k1, _, .inr k2, rfl⟩)
  | dataType k1 k2 => exact .inr (.inr ⟨_, k1, k2⟩)
  | «alias» k1 k2 => exact .inl (.alias ((e _).symm.trans k1) k2)
  | parent k1 k2 k3 k4 => exact .inl (.parent ((e _).symm.trans k1) k2 (h4 ▸ k3) k4)

theorem used_same {s' : St} (h1 : s'.bases = s.bases) {u : MapUse} {m : Nat} (h : UsedFor s' u m) : UsedFor s u m := by
  have e : ∀ a, s'.base a = s.base a := fun a => by simp [St.base, h1]
  cases h with
  | properties k1 k2 k3 => exact .properties ((e _).symm.trans k1) k2 k3
  | facets k1 k2 => exact .facets ((e _).symm.trans k1) k2

theorem patterns_same {s' : St} (h1 : s'.bases = s.bases) {a : Addr} {m : Nat} (h : PatternsIn s' a m) : PatternsIn s a m := by
  obtain ⟨b, f, k1, k2, k3⟩ := h
  exact ⟨b, f, by simpa [St.base, h1] using k1, k2, k3⟩

/-- The new state has the bases, maps and slices of the old one; what is declared was declared or is new. -/
theorem other {s' : St} (hi : I s) (h1 : s'.bases = s.bases) (h2 : s'.pmaps = s.pmaps) (h3 : s'.ppmaps = s.ppmaps) (h4 : s'.slices = s.slices)
    (h5 : ∀ l ∈ s'.libs, ∀ e, e ∈ l.types ∨ e ∈ l.annotationTypes → ReferredTo s e.2 ∨ New k s e.2) (h6 : ∀ d ∈ s'.dts, ∀ x, d.shape = some x → ReferredTo s x ∨ New k s x)
    (h7 : ∀ x, Head s x → Head s' x) : I s' ∧ R k s s' := by
  refine hi.step ⟨by simp [mark, h1], by simp [mark, h2], by simp [mark, h3]⟩ (by rw [h4]) (fun _ => .items 0) (.facets 0)
    (fun p x h => .inl (held_same h1 h2 h3 h4 h)) (fun x h => ?_) (.inl fun p x h => held_same h1 h2 h3 h4 h) (fun u m h => .inl (used_same h1 h)) (fun a m h => patterns_same h1 h)
    (fun a b h => .inl (by simpa [St.base, h1] using h)) h7 (h2 ▸ hi.names) (h3 ▸ hi.patNames)
  rcases referred_same h1 h4 h with h | ⟨l, hl, e, he, rfl⟩ | ⟨d, hd, h⟩
  · exact .inl h
  · exact h5 l hl e he
  · exact h6 d hd x h

theorem Own.other {α : Type} {m : M St α} {x : α} {s' : St} (hm : m s = (.ok x, s')) (hi : I s) (h1 : s'.bases = s.bases) (h2 : s'.pmaps = s.pmaps)
    (h3 : s'.ppmaps = s.ppmaps) (h4 : s'.slices = s.slices) (h5 : s'.libs = s.libs) (h6 : s'.dts = s.dts) :
    Own k m s fun y t => y = x ∧ t = s' ∧ R (mark s) s s' := by
  have key := fun k => Apart.other (k := k) hi h1 h2 h3 h4
    (fun l hl e he => .inl (he.elim (fun he => .type (h5 ▸ hl) he) fun he => .annotationType (h5 ▸ hl) he)) (fun d hd x hx => .inl (.dataType (h6 ▸ hd) hx))
    fun x ⟨l, hl, h⟩ => ⟨l, h5.symm ▸ hl, h⟩
  exact .of hm (key k).1 (key k).2 ⟨rfl, rfl, (key _).2⟩

theorem mem_set {α : Type} {m : OMap α} {k : String} {v : α} {e : String × α} (h : e ∈ OMap.set m k v) : e ∈ m ∨ e = (k, v) := Whole.mem_omap_set h

theorem keys_set {α : Type} {m : OMap α} (hm : (m.map (·.1)).Nodup) (k : String) (v : α) : ((OMap.set m k v).map (·.1)).Nodup := by
  rw [OMap.keys_set]
  split
  · exact hm
  · next hk => exact List.nodup_append.2 ⟨hm, by simp, fun a ha b hb => by simp at hb; subst hb; rintro rfl; exact hk ha⟩

theorem nodup_modify {α : Type} {l : List (OMap α)} {i : Nat} {k : String} {v : α} (h : ∀ m ∈ l, (m.map (·.1)).Nodup) :
    ∀ m ∈ l.modify i (fun m => OMap.set m k v), (m.map (·.1)).Nodup := fun m hm => by
  rcases Whole.mem_modify hm with hm | ⟨y, hy, _, rfl⟩
  · exact h m hm
  · exact keys_set (h y hy) k v

/-- The state after storing an entry. -/
abbrev withProp (s : St) (i : Nat) (n : String) (p : Property) : St := { s with pmaps := s.pmaps.modify i fun m => OMap.set m n p }

theorem Own.setProp {i : Nat} {n : String} {p : Property} (hi : I s) (hp : New k s p.base) :
    Own k (Heap.setProp i n p) s fun _ s' => s'.bases = s.bases ∧ (mark s).Le (mark s') := by
  have hg : (mark s).Le (mark (withProp s i n p)) := ⟨Nat.le_refl _, by simp [mark], Nat.le_refl _⟩
  have hr : ∀ x, ReferredTo (withProp s i n p) x → ReferredTo s x := fun x h => by
    rcases referred_same (s := s) (s' := withProp s i n p) rfl rfl h with h | ⟨l, hl, e, he, rfl⟩ | ⟨d, hd, h⟩
    · exact h
    · exact he.elim (.type hl) (.annotationType hl)
    · exact .dataType hd h
  have key := hi.step (k := k) (s' := (withProp s i n p)) hg (Nat.le_refl _) (fun _ => .property i n) (.facets 0)
    (fun q x h => ?_) (fun x h => .inl (hr x h)) (.inr hr) (fun u m h => .inl (used_same (s := s) (s' := withProp s i n p) rfl h)) (fun a m h => patterns_same (s := s) (s' := withProp s i n p) rfl h) (fun a b h => .inl h) (fun _ h => h) (nodup_modify hi.names) hi.patNames
  · exact .of (x := ()) rfl key.1 key.2 ⟨rfl, hg⟩
  · cases h with
    | items k1 k2 k3 => exact .inl (.items k1 k2 k3)
    | member k1 k2 k3 k4 => exact .inl (.member k1 k2 k3 k4)
    | pattern k1 k2 => exact .inl (.pattern k1 k2)
    | @property m l n' p' k1 k2 =>
      have k1 : (s.pmaps.modify i fun m => OMap.set m n p)[m]? = some l := k1
      rw [List.getElem?_modify] at k1
      obtain ⟨l0, h0, rfl⟩ := Option.map_eq_some_iff.1 k1
      by_cases e : i = m
      · subst e
        simp only [if_true] at k2
        rcases mem_set k2 with k2 | k2
        · exact .inl (.property h0 k2)
        · cases k2; exact .inr ⟨hp, rfl⟩
      · simp only [e, if_false] at k2
        exact .inl (.property h0 k2)

/-- The state after storing an entry. -/
abbrev withPatProp (s : St) (i : Nat) (n : String) (p : PatternProperty) : St := { s with ppmaps := s.ppmaps.modify i fun m => OMap.set m n p }

theorem Own.setPatProp {i : Nat} {n : String} {p : PatternProperty} (hi : I s) (hp : New k s p.base) :
    Own k (Heap.setPatProp i n p) s fun _ s' => s'.bases = s.bases ∧ (mark s).Le (mark s') := by
  have hg : (mark s).Le (mark (withPatProp s i n p)) := ⟨Nat.le_refl _, Nat.le_refl _, by simp [mark]⟩
  have hr : ∀ x, ReferredTo (withPatProp s i n p) x → ReferredTo s x := fun x h => by
    rcases referred_same (s := s) (s' := withPatProp s i n p) rfl rfl h with h | ⟨l, hl, e, he, rfl⟩ | ⟨d, hd, h⟩
    · exact h
    · exact he.elim (.type hl) (.annotationType hl)
    · exact .dataType hd h
  have key := hi.step (k := k) (s' := (withPatProp s i n p)) hg (Nat.le_refl _) (fun _ => .pattern i n) (.facets 0)
    (fun q x h => ?_) (fun x h => .inl (hr x h)) (.inr hr) (fun u m h => .inl (used_same (s := s) (s' := withPatProp s i n p) rfl h)) (fun a m h => patterns_same (s := s) (s' := withPatProp s i n p) rfl h) (fun a b h => .inl h) (fun _ h => h) hi.names (nodup_modify hi.patNames)
  · exact .of (x := ()) rfl key.1 key.2 ⟨rfl, hg⟩
  · cases h with
    | items k1 k2 k3 => exact .inl (.items k1 k2 k3)
    | member k1 k2 k3 k4 => exact .inl (.member k1 k2 k3 k4)
    | property k1 k2 => exact .inl (.property k1 k2)
    | @pattern m l n' p' k1 k2 =>
      have k1 : (s.ppmaps.modify i fun m => OMap.set m n p)[m]? = some l := k1
      rw [List.getElem?_modify] at k1
      obtain ⟨l0, h0, rfl⟩ := Option.map_eq_some_iff.1 k1
      by_cases e : i = m
      · subst e
        simp only [if_true] at k2
        rcases mem_set k2 with k2 | k2
        · exact .inl (.pattern h0 k2)
        · cases k2; exact .inr ⟨hp, rfl⟩
      · simp only [e, if_false] at k2
        exact .inl (.pattern h0 k2)

/-- An entry of a list with one more element. -/
theorem getElem?_snoc {α : Type} {l : List α} {x y : α} {i : Nat} (h : (l ++ [x])[i]? = some y) : l[i]? = some y ∨ i = l.length ∧ y = x := by
  rw [List.getElem?_append] at h
  split at h
  · exact .inl h
  · rw [List.getElem?_singleton] at h
    split at h
    · cases h; exact .inr ⟨by omega, rfl⟩
    · cases h

/-- The new state has more empty maps and more slices. -/
theorem more {s' : St} (hi : I s) (h1 : s'.bases = s.bases) (hg : (mark s).Le (mark s')) (hl : s'.libs = s.libs) (hd : s'.dts = s.dts)
    (h2 : ∀ (m : Nat) l, s'.pmaps[m]? = some l → s.pmaps[m]? = some l ∨ l = []) (h3 : ∀ (m : Nat) l, s'.ppmaps[m]? = some l → s.ppmaps[m]? = some l ∨ l = [])
    (h4 : ∃ t, s'.slices = s.slices ++ t) : I s' ∧ R k s s' := by
  have e : ∀ a, s'.base a = s.base a := fun a => by simp [St.base, h1]
  obtain ⟨t, h4⟩ := h4
  have sl : ∀ {j : Nat} {l}, j < s.slices.length → s'.slices[j]? = some l → s.slices[j]? = some l := fun hj h => by
    rw [h4, List.getElem?_append_left hj] at h; exact h
  have hH : ∀ p x, HeldAt s' p x → HeldAt s p x := fun p x h => by
    cases h with
    | items k1 k2 k3 => exact .items ((e _).symm.trans k1) k2 k3
    | member k1 k2 k3 k4 => exact .member ((e _).symm.trans k1) k2 (sl (hi.members _ _ _ _ ((e _).symm.trans k1) k2) k3) k4
    | property k1 k2 =>
      rcases h2 _ _ k1 with h | rfl
      · exact .property h k2
      · cases k2
    | pattern k1 k2 =>
      rcases h3 _ _ k1 with h | rfl
      · exact .pattern h k2
      · cases k2
  refine hi.step hg (by simp [h4]) (fun _ => .items 0) (.facets 0) (fun p x h => .inl (hH p x h)) (fun x h => .inl ?_) (.inl hH) (fun u m h => .inl (used_same h1 h))
    (fun a m h => patterns_same h1 h) (fun a b h => .inl (by simpa [St.base, h1] using h)) (fun x ⟨l, k1, h⟩ => ⟨l, hl.symm ▸ k1, h⟩)
    (fun m hm => by
      obtain ⟨i, hm⟩ := List.getElem?_of_mem hm
      rcases h2 _ _ hm with h | rfl
      · exact hi.names _ (List.mem_of_getElem? h)
      · simp)
    (fun m hm => by
      obtain ⟨i, hm⟩ := List.getElem?_of_mem hm
      rcases h3 _ _ hm with h | rfl
      · exact hi.patNames _ (List.mem_of_getElem? h)
      · simp)
  cases h with
  | type k1 k2 => exact .type (hl ▸ k1) k2
  | annotationType k1 k2 => exact .annotationType (hl ▸ k1) k2
  | dataType k1 k2 => exact .dataType (hd ▸ k1) k2
  | «alias» k1 k2 => exact .alias ((e _).symm.trans k1) k2
  | parent k1 k2 k3 k4 => exact .parent ((e _).symm.trans k1) k2 (sl (hi.parents _ _ _ ((e _).symm.trans k1) k2) k3) k4

theorem Own.newSlice {l : List Addr} (hi : I s) : Own k (Heap.newSlice l) s fun i s' => i < s'.slices.length ∧ s'.slices[i]? = some l ∧ R (mark s) s s' := by
  have key := fun k => more (k := k) (s' := { s with slices := s.slices ++ [l] }) hi rfl (.refl _) rfl rfl (fun _ _ h => .inl h) (fun _ _ h => .inl h) ⟨[l], rfl⟩
  exact .of (x := s.slices.length) rfl (key k).1 (key k).2 ⟨by simp, by simp, (key _).2⟩

theorem Own.newProps (hi : I s) (hk : k.Le (mark s)) : Own k (Heap.newProps []) s fun i s' => (∀ u, MineMap k s' u i) ∧ R (mark s) s s' := by
  have key := fun k => more (k := k) (s' := { s with pmaps := s.pmaps ++ [[]] }) hi rfl ⟨Nat.le_refl _, by simp [mark], Nat.le_refl _⟩ rfl rfl
    (fun _ _ h => (getElem?_snoc h).imp id fun h => h.2) (fun _ _ h => .inl h) ⟨[], by simp⟩
  exact .of (x := s.pmaps.length) rfl (key k).1 (key k).2 ⟨fun u => ⟨hk.2, by simp, fun w h => absurd (hi.maps w _ (used_same (s := s) (s' := { s with pmaps := s.pmaps ++ [[]] }) rfl h)) (Nat.lt_irrefl _)⟩, (key _).2⟩

theorem Own.newPatProps (hi : I s) (hk : k.Le (mark s)) : Own k (Heap.newPatProps []) s fun i s' => (∀ u, MinePat k s' u i) ∧ R (mark s) s s' := by
  have key := fun k => more (k := k) (s' := { s with ppmaps := s.ppmaps ++ [[]] }) hi rfl ⟨Nat.le_refl _, Nat.le_refl _, by simp [mark]⟩ rfl rfl
    (fun _ _ h => .inl h) (fun _ _ h => (getElem?_snoc h).imp id fun h => h.2) ⟨[], by simp⟩
  exact .of (x := s.ppmaps.length) rfl (key k).1 (key k).2 ⟨fun u => ⟨hk.3, by simp, fun w h => absurd (hi.patterns w _ (patterns_same (s := s) (s' := { s with ppmaps := s.ppmaps ++ [[]] }) rfl h)) (Nat.lt_irrefl _)⟩, (key _).2⟩

/-- The state after `makeBaseShape`. -/
abbrev withBase (s : St) (name location : String) : St :=
  { s with
    idCounter := s.idCounter + 1, fmaps := s.fmaps ++ [[]], pmaps := s.pmaps ++ [[]]
    bases := s.bases ++ [{ id := s.idCounter + 1, name, location, facets := some s.fmaps.length, facetDefs := some s.pmaps.length }]
    shapes := s.shapes ++ [s.bases.length] }

theorem Own.makeBaseShape {name location : String} (hi : I s) (hk : k.Le (mark s)) :
    Own k (makeBaseShape name location) s fun a s' => New (mark s) s' a ∧ R (mark s) s s' := by
  have hb : ∀ {a : Addr} {b : Base}, (withBase s name location).base a = some b →
      s.base a = some b ∨ a = s.bases.length ∧ b.shape = none ∧ b.inherits = none ∧ b.alias = none ∧ b.facetDefs = some s.pmaps.length ∧ b.unwrapped = false ∧ b.visited = false :=
    fun h => (getElem?_snoc h).imp id fun h => by rw [h.2]; exact ⟨h.1, rfl, rfl, rfl, rfl, rfl, rfl⟩
  have hH : ∀ p x, HeldAt (withBase s name location) p x → HeldAt s p x := fun p x h => by
    cases h with
    | items k1 k2 k3 =>
      rcases hb k1 with h | ⟨_, h, _⟩
      · exact .items h k2 k3
      · rw [h] at k2; cases k2
    | member k1 k2 k3 k4 =>
      rcases hb k1 with h | ⟨_, h, _⟩
      · exact .member h k2 k3 k4
      · rw [h] at k2; cases k2
    | property k1 k2 =>
      rcases getElem?_snoc (show (s.pmaps ++ [[]])[_]? = _ from k1) with h | ⟨_, rfl⟩
      · exact .property h k2
      · cases k2
    | pattern k1 k2 => exact .pattern k1 k2
  have hR : ∀ x, ReferredTo (withBase s name location) x → ReferredTo s x := fun x h => by
    cases h with
    | type k1 k2 => exact .type k1 k2
    | annotationType k1 k2 => exact .annotationType k1 k2
    | dataType k1 k2 => exact .dataType k1 k2
    | «alias» k1 k2 =>
      rcases hb k1 with h | ⟨_, _, _, h, _⟩
      · exact .alias h k2
      · rw [h] at k2; cases k2
    | parent k1 k2 k3 k4 =>
      rcases hb k1 with h | ⟨_, _, h, _⟩
      · exact .parent h k2 k3 k4
      · rw [h] at k2; cases k2
  have key : ∀ k : Mark, k.Le (mark s) → _ := fun k hk => hi.step (k := k) (s' := withBase s name location) ⟨by simp [mark], by simp [mark], Nat.le_refl _⟩ (Nat.le_refl _) (fun _ => .items 0) (.facets s.bases.length)
    (fun p x h => .inl (hH p x h)) (fun x h => .inl (hR x h)) (.inl hH) (fun u m h => ?_) (fun a m h => ?_) (fun a b h => (hb h).imp id fun h => ⟨h.2.1, h.2.2.1, h.2.2.2.2.2⟩) (fun _ h => h)
    (fun m hm => (List.mem_append.1 hm).elim (hi.names m) fun h => by rw [List.mem_singleton.1 h]; simp) hi.patNames
  · refine .of (x := s.bases.length) (s' := withBase s name location) rfl (key k hk).1 (key k hk).2 ⟨⟨Nat.le_refl _, by simp, fun p h => ?_, fun h => ?_⟩, (key _ (.refl _)).2⟩
    · exact Nat.lt_irrefl _ (hi.held _ _ (hH p _ h))
    · exact Nat.lt_irrefl _ (hi.referred _ (hR _ h))
  · cases h with
    | properties k1 k2 k3 =>
      rcases hb k1 with h | ⟨_, h, _⟩
      · exact .inl (.properties h k2 k3)
      · rw [h] at k2; cases k2
    | facets k1 k2 =>
      rcases hb k1 with h | ⟨rfl, _, _, _, h, _⟩
      · exact .inl (.facets h k2)
      · rw [h] at k2; cases k2; exact .inr ⟨hk.2, Nat.le_refl _, by simp, rfl⟩
  · obtain ⟨b, f, k1, k2, k3⟩ := h
    rcases hb k1 with h | ⟨_, h, _⟩
    · exact ⟨b, f, h, k2, k3⟩
    · rw [h] at k2; cases k2

theorem Own.newLib {l : Lib} (hi : I s) (hl : ∀ e, e ∈ l.types ∨ e ∈ l.annotationTypes → New k s e.2) : Own k (Heap.newLib l) s fun _ _ => True := by
  have key := Apart.other (k := k) (s' := { s with libs := s.libs ++ [l] }) hi rfl rfl rfl rfl
    (fun m hm e he => by
      rcases List.mem_append.1 hm with hm | hm
      · exact .inl (he.elim (.type hm) (.annotationType hm))
      · cases List.mem_singleton.1 hm; exact .inr (hl e he)) (fun d hd x hx => .inl (.dataType hd hx)) fun x ⟨m, hm, h⟩ => ⟨m, List.mem_append_left _ hm, h⟩
  exact .of (x := s.libs.length) rfl key.1 key.2 trivial

theorem Own.newDT {d : DT} (hi : I s) (hl : ∀ x, d.shape = some x → New k s x) : Own k (Heap.newDT d) s fun _ _ => True := by
  have key := Apart.other (k := k) (s' := { s with dts := s.dts ++ [d] }) hi rfl rfl rfl rfl
    (fun m hm e he => .inl (he.elim (.type hm) (.annotationType hm))) (fun c hd x hx => by
      rcases List.mem_append.1 hd with hd | hd
      · exact .inl (.dataType hd hx)
      · cases List.mem_singleton.1 hd; exact .inr (hl x hx)) fun _ h => h
  exact .of (x := s.dts.length) rfl key.1 key.2 trivial

theorem Own.linkLib {i : Nat} {n v : String} {l : Option Nat} (hi : I s) : Own k (Heap.linkLib i n v l) s fun _ _ => True := by
  have key := Apart.other (k := k) (s' := { s with libs := s.libs.modify i fun l' => { l' with uses := OMap.set l'.uses n (v, l) } }) hi rfl rfl rfl rfl
    (fun m hm e he => by
      rcases Whole.mem_modify hm with h | ⟨y, h, _, rfl⟩
      · exact .inl (he.elim (.type h) (.annotationType h))
      · exact .inl (he.elim (fun he => .type (l := y) h he) fun he => .annotationType (l := y) h he)) (fun d hd x hx => .inl (.dataType hd hx))
    fun x ⟨m, hm, e, he, hx⟩ => by
      obtain ⟨j, hj⟩ := List.getElem?_of_mem hm
      have h2 : (s.libs.modify i fun l' => { l' with uses := OMap.set l'.uses n (v, l) })[j]? = _ := List.getElem?_modify ..
      rw [hj] at h2
      refine ⟨_, List.mem_of_getElem? h2, e, ?_, hx⟩
      split <;> exact he
  exact .of (x := ()) rfl key.1 key.2 trivial

theorem Own.linkDT {i : Nat} {n v : String} {l : Option Nat} (hi : I s) : Own k (Heap.linkDT i n v l) s fun _ _ => True := by
  have key := Apart.other (k := k) (s' := { s with dts := s.dts.modify i fun l' => { l' with uses := OMap.set l'.uses n (v, l) } }) hi rfl rfl rfl rfl
    (fun m hm e he => .inl (he.elim (.type hm) (.annotationType hm))) (fun d hd x hx => by
      rcases Whole.mem_modify hd with hm | ⟨y, hm, _, rfl⟩
      · exact .inl (.dataType hm hx)
      · exact .inl (.dataType hm hx)) fun _ h => h
  exact .of (x := ()) rfl key.1 key.2 trivial

theorem Own.putFragment {p : String} {f : FragRef} (hi : I s) : Own k (putFragment p f) s fun _ _ => True := by
  unfold GoRaml.putFragment
  cases hg : OMap.get s.fragments p with
  | some x => exact .of (x := ()) (s' := s) (by simp [hg]) hi (.refl k s) trivial
  | none => exact (Own.other (x := ()) (s' := { s with fragments := OMap.set s.fragments p f }) (by simp [hg]) hi rfl rfl rfl rfl rfl rfl).post fun _ _ _ _ _ => trivial

end ops

end GoRaml.Apart
