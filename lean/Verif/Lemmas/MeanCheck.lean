import Verif.Spec.Meaning
import Verif.Spec.Lineage
import Verif.Lemmas.KinLine

/-!
# Deciding whether a model is straight
-/

namespace GoRaml.Mean

open GoRaml GoRaml.Spec

variable {s : St}

/-- What a type is built on. -/
def nextOf (s : St) (d : Addr) : Option Addr :=
  (s.base d).bind fun b =>
    match b.alias with
    | some t => some t
    | none =>
      match b.link with
      | some k => (s.dts[k]?).bind (·.shape)
      | none =>
        match s.slice b.inherits with
        | [p] => some p
        | _ => none

theorem nextOf_of {d x : Addr} (h : BuiltOn s d x) : nextOf s d = some x := by
  cases h with
  | «alias» h1 h2 => simp [nextOf, h1, h2]
  | included h1 h2 h3 h4 h5 => simp [nextOf, h1, h2, h3, h4, h5]
  | parent h1 h2 h3 h4 => simp [nextOf, h1, h2, h3, h4]

/-- The line of a type. -/
def lineOf (s : St) : Nat → Addr → Option (List Addr)
  | 0, _ => none
  | n + 1, a =>
    match s.base a with
    | none => none
    | some b =>
      match b.alias with
      | some x => lineOf s n x
      | none =>
        match b.link with
        | some k =>
          match (s.dts[k]?).bind (·.shape) with
          | some x => (lineOf s n x).map (a :: ·)
          | none => none
        | none =>
          match s.slice b.inherits with
          | [] => some [a]
          | [x] => (lineOf s n x).map (a :: ·)
          | _ => none

theorem lineOf_line : ∀ {n : Nat} {a : Addr} {l : List Addr}, lineOf s n a = some l → Line s a l
  | 0, _, _, h => by cases h
  | n + 1, a, l, h => by
    unfold lineOf at h
    cases hb : s.base a with
    | none => rw [hb] at h; cases h
    | some b =>
      rw [hb] at h
      simp only at h
      cases ha : b.alias with
      | some x => rw [ha] at h; exact .alias hb ha (lineOf_line h)
      | none =>
        rw [ha] at h
        simp only at h
        cases hk : b.link with
        | some k =>
          rw [hk] at h
          simp only at h
          cases hx : (s.dts[k]?).bind (·.shape) with
          | none => rw [hx] at h; cases h
          | some x =>
            rw [hx] at h
            obtain ⟨t, h1, h2⟩ := Option.bind_eq_some_iff.1 hx
            obtain ⟨l', h3, rfl⟩ := Option.map_eq_some_iff.1 h
            exact .on hb ha (.included hb ha hk h1 h2) (lineOf_line h3)
        | none =>
          rw [hk] at h
          simp only at h
          cases hi : s.slice b.inherits with
          | nil => rw [hi] at h; cases h; exact .root hb ha hk hi
          | cons x m =>
            rw [hi] at h
            cases m with
            | nil =>
              obtain ⟨l', h3, rfl⟩ := Option.map_eq_some_iff.1 h
              exact .on hb ha (.parent hb ha hk hi) (lineOf_line h3)
            | cons y m => cases h

/-- The declaration has a pattern. -/
def hasPatternB (s : St) (a : Addr) : Bool :=
  match s.shapeAt a with
  | some (.string f) => f.pattern.isSome
  | _ => false

theorem hasPatternB_of {a : Addr} (h : HasPattern s a) : hasPatternB s a = true := by
  obtain ⟨f, h1, h2⟩ := h
  unfold hasPatternB
  rw [h1]
  exact Option.isSome_iff_ne_none.2 h2

/-- No key is in both maps. -/
def apartB {α : Type} (m m' : OMap α) : Bool := m.all fun p => m'.all fun q => !(p.1 == q.1)

theorem apartB_of {α : Type} {m m' : OMap α} (h : apartB m m' = true) : ∀ p ∈ m, ∀ q ∈ m', p.1 ≠ q.1 := fun p hp q hq e => by
  have := List.all_eq_true.1 (List.all_eq_true.1 h p hp) q hq
  simp [e] at this

/-- What a type involves. -/
def involvedOf (s : St) (a : Addr) : List Addr :=
  (match s.shapeAt a with
    | some (.array f) => f.items.toList
    | some (.object f) => (s.props f.properties).map (·.2.base) ++ (s.patProps f.patternProperties).map (·.2.base)
    | some (.union u _) => s.slice u
    | _ => []) ++ (nextOf s a).toList

theorem involvedOf_of {a y : Addr} (h : Involves s a y) : y ∈ involvedOf s a := by
  unfold involvedOf
  rcases h with ⟨q, h1, h2⟩ | h
  · refine List.mem_append_left _ ?_
    rw [h1]
    cases h2 with
    | items h => simp [h]
    | property h => exact List.mem_append_left _ (List.mem_map.2 ⟨_, h, rfl⟩)
    | pattern h => exact List.mem_append_right _ (List.mem_map.2 ⟨_, h, rfl⟩)
    | member h => exact h
  · exact List.mem_append_right _ (by simp [nextOf_of h])

/-- What is involved, in a number of rounds. -/
def closure (s : St) : Nat → List Addr → List Addr
  | 0, l => l
  | n + 1, l => closure s n (l ++ ((l.flatMap (involvedOf s)).filter fun x => !l.contains x).eraseDups)

/-- The type does not involve itself. -/
def notDeepB (s : St) (n : Nat) (x : Addr) : Bool :=
  let l := closure s n (involvedOf s x)
  ((involvedOf s x).all l.contains && l.all fun y => (involvedOf s y).all l.contains) && !l.contains x

theorem notDeepB_of {n : Nat} {x : Addr} (h : notDeepB s n x = true) : ¬ InvolvesDeeply s x x := by
  unfold notDeepB at h
  simp only [Bool.and_eq_true, Bool.not_eq_true'] at h
  obtain ⟨⟨h1, h2⟩, h3⟩ := h
  have key : ∀ {y}, InvolvesDeeply s x y → (closure s n (involvedOf s x)).contains y = true := fun {y} hy => by
    induction hy with
    | one h => exact List.all_eq_true.1 h1 _ (involvedOf_of h)
    | more _ h ih => exact List.all_eq_true.1 (List.all_eq_true.1 h2 _ (List.contains_iff_mem.1 ih)) _ (involvedOf_of h)
  exact fun hx => by rw [key hx] at h3; cases h3

/-- `Restricting`. -/
def restrictingB : Shape → Bool
  | .string _ | .integer _ | .boolean _ | .file _ | .nil | .dateOnly | .timeOnly | .datetimeOnly => true
  | .number f => (match f.minimum with | some .nan => false | _ => true) && (match f.maximum with | some .nan => false | _ => true)
  | _ => false

theorem restrictingB_of {q : Shape} (h : restrictingB q = true) : Restricting q := by
  cases q with
  | number f =>
    obtain ⟨h1, h2⟩ := Bool.and_eq_true_iff.1 h
    exact ⟨(fun e => by rw [e] at h1; cases h1), (fun e => by rw [e] at h2; cases h2)⟩
  | _ => first | trivial | cases h

/-- `Scalar` and `OnePattern`. -/
def scalarsB (s : St) (x y : Addr) : Bool :=
  match lineOf s (s.bases.length + 1) x, lineOf s (s.bases.length + 1) y with
  | some l, some l' => (l ++ l').all (fun c => ((s.shapeAt c).map restrictingB).getD false) && l.all fun c => l'.all fun c' => !(hasPatternB s c && hasPatternB s c')
  | _, _ => false

theorem scalarsB_of {x y : Addr} (h : scalarsB s x y = true) : Scalar s x ∧ Scalar s y ∧ OnePattern s x y := by
  unfold scalarsB at h
  split at h
  · rename_i l l' hl hl'
    obtain ⟨h1, h2⟩ := Bool.and_eq_true_iff.1 h
    have at_ : ∀ c ∈ l ++ l', ∃ q, s.shapeAt c = some q ∧ Restricting q := fun c hc => by
      have := List.all_eq_true.1 h1 c hc
      cases hq : s.shapeAt c with
      | none => rw [hq] at this; cases this
      | some q => rw [hq] at this; exact ⟨q, rfl, restrictingB_of this⟩
    refine ⟨⟨l, lineOf_line hl, fun c hc => at_ c (List.mem_append_left _ hc)⟩, ⟨l', lineOf_line hl', fun c hc => at_ c (List.mem_append_right _ hc)⟩,
      fun m m' hm hm' c hc c' hc' ⟨k1, k2⟩ => ?_⟩
    cases Kin.Line.unique hm (lineOf_line hl)
    cases Kin.Line.unique hm' (lineOf_line hl')
    have := List.all_eq_true.1 (List.all_eq_true.1 h2 c hc) c' hc'
    rw [hasPatternB_of k1, hasPatternB_of k2] at this
    cases this
  · cases h

/-- `Distinct`. -/
def distinctB (s : St) (c c' : Addr) : Bool :=
  !(hasPatternB s c && hasPatternB s c') &&
    match s.shapeAt c, s.shapeAt c' with
    | some (.array f), some (.array f') => f.items.isNone || f'.items.isNone
    | some (.object f), some (.object f') =>
      ((s.props f.properties).all fun p => (s.props f'.properties).all fun q => !(p.1 == q.1) || (scalarsB s p.2.base q.2.base && notDeepB s s.bases.length c')) &&
        apartB (s.patProps f.patternProperties) (s.patProps f'.patternProperties)
    | _, _ => true

theorem distinctB_of {c c' : Addr} (h : distinctB s c c' = true) : Distinct s c c' := by
  unfold distinctB at h
  obtain ⟨h1, h2⟩ := Bool.and_eq_true_iff.1 h
  refine ⟨fun ⟨k1, k2⟩ => ?_, fun f f' k1 k2 => ?_, fun f f' k1 k2 p hp q hq e => ?_, fun f f' k1 k2 => ?_⟩
  · rw [hasPatternB_of k1, hasPatternB_of k2] at h1; cases h1
  · rw [k1, k2] at h2
    simpa using h2
  · rw [k1, k2] at h2
    have := List.all_eq_true.1 (List.all_eq_true.1 (Bool.and_eq_true_iff.1 h2).1 p hp) q hq
    rw [e] at this
    simp only [BEq.rfl, Bool.not_true, Bool.false_or, Bool.and_eq_true] at this
    obtain ⟨k3, k4, k5⟩ := scalarsB_of this.1
    exact ⟨k3, k4, k5, notDeepB_of this.2⟩
  · rw [k1, k2] at h2
    exact apartB_of (Bool.and_eq_true_iff.1 h2).2

/-- All pairs. -/
def pairsB {α : Type} (r : α → α → Bool) : List α → Bool
  | [] => true
  | x :: l => l.all (r x) && pairsB r l

theorem pairsB_of {α : Type} {r : α → α → Bool} : ∀ {l : List α}, pairsB r l = true → l.Pairwise fun x y => r x y = true
  | [], _ => .nil
  | x :: l, h => by
    obtain ⟨h1, h2⟩ := Bool.and_eq_true_iff.1 h
    exact .cons (List.all_eq_true.1 h1) (pairsB_of h2)

/-- `Heritable`. -/
def heritableB : Shape → Bool
  | .array _ | .object _ | .union _ _ | .string _ | .integer _ | .boolean _ | .file _ | .nil | .dateOnly | .timeOnly | .datetimeOnly => true
  | .number f => (match f.minimum with | some .nan => false | _ => true) && (match f.maximum with | some .nan => false | _ => true)
  | _ => false

theorem heritableB_of {q : Shape} (h : heritableB q = true) : Heritable q := by
  cases q with
  | number f =>
    obtain ⟨h1, h2⟩ := Bool.and_eq_true_iff.1 h
    exact ⟨(fun e => by rw [e] at h1; cases h1), (fun e => by rw [e] at h2; cases h2)⟩
  | _ => first | trivial | cases h

/-- What is asked of the type at `a`. -/
def straightAt (s : St) (rank : Addr → Nat) (a : Addr) (b : Base) : Bool :=
  (match lineOf s (s.bases.length + 1) a with
    | none => false
    | some l => pairsB (distinctB s) l) &&
  (s.props b.facetDefs).isEmpty &&
  (match b.shape with
    | some (.union u _) => (s.slice u).all fun m => decide (rank m < rank a)
    | some (.boolean (some _)) => false
    | _ => true) &&
  match nextOf s a with
  | none => true
  | some x =>
    decide ((s.shapeAt a).map Kind = (s.shapeAt x).map Kind) && decide (rank x ≤ rank a) &&
    (b.alias.isSome || match b.shape with
      | some (.union u _) => (s.slice u).isEmpty
      | some q => heritableB q
      | none => true) &&
    ((nextOf s x).isNone || notDeepB s s.bases.length x)

/-- `Straight`, for models whose booleans have no enums. -/
def straightB (s : St) (rank : Addr → Nat) : Bool :=
  (List.range s.bases.length).all fun a => ((s.base a).map (straightAt s rank a)).getD true

theorem straightB_of {rank : Addr → Nat} (h : straightB s rank = true) : Straight s := by
  have at_ : ∀ {a b}, s.base a = some b → straightAt s rank a b = true := fun {a b} hb => by
    have ha : a < s.bases.length := (List.getElem?_eq_some_iff.1 hb).1
    have := List.all_eq_true.1 h a (List.mem_range.2 ha)
    rw [hb] at this
    exact this
  have next : ∀ {d x}, BuiltOn s d x → ∃ b, s.base d = some b := fun h => by
    cases h with
    | «alias» h1 => exact ⟨_, h1⟩
    | included h1 => exact ⟨_, h1⟩
    | parent h1 => exact ⟨_, h1⟩
  have shape : ∀ {a q}, s.shapeAt a = some q → ∃ b, s.base a = some b ∧ b.shape = some q := fun hq => by
    unfold St.shapeAt at hq
    exact Option.bind_eq_some_iff.1 hq
  have part : ∀ {a b}, s.base a = some b → _ := fun {a b} hb => by
    have := at_ hb
    unfold straightAt at this
    simp only [Bool.and_eq_true] at this
    exact this
  have on : ∀ {d b x}, s.base d = some b → BuiltOn s d x → _ := fun {d b x} hb hx => by
    have := (part hb).2
    rw [nextOf_of hx] at this
    simp only [Bool.and_eq_true, Bool.or_eq_true, decide_eq_true_eq] at this
    exact this
  constructor
  · intro a b hb
    have := (part hb).1.1.1
    cases hl : lineOf s (s.bases.length + 1) a with
    | none => rw [hl] at this; cases this
    | some l =>
      rw [hl] at this
      exact ⟨l, lineOf_line hl, (pairsB_of this).imp distinctB_of⟩
  · intro d x q r hx hq hr
    obtain ⟨b, hb⟩ := next hx
    have := (on hb hx).1.1.1
    rw [hq, hr] at this
    simpa using this
  · intro d b x q hb ha hx hq
    have := (on hb hx).1.2
    rw [ha, hq] at this
    cases q with
    | union => trivial
    | _ => exact heritableB_of (by simpa using this)
  · intro d b x u e hb ha hx hq
    have := (on hb hx).1.2
    rw [ha, hq] at this
    simpa using this
  · intro d b x e hb _ _ hq
    obtain ⟨b', h1, h2⟩ := shape hq
    have := (part h1).1.2
    rw [h2] at this
    cases e with
    | none => rfl
    | some e => cases this
  · intro a b hb
    exact List.isEmpty_iff.1 (part hb).1.1.2
  · intro d x y hx hy
    obtain ⟨b, hb⟩ := next hx
    have := (on hb hx).2
    rw [nextOf_of hy] at this
    exact notDeepB_of (by simpa using this)
  · refine ⟨rank, fun a u e hq m hm => ?_, fun a x hx => ?_⟩
    · obtain ⟨b', h1, h2⟩ := shape hq
      have := (part h1).1.2
      rw [h2] at this
      simpa using List.all_eq_true.1 this m hm
    · obtain ⟨b, hb⟩ := next hx
      exact (on hb hx).1.1.2

end GoRaml.Mean
