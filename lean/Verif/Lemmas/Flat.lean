import Verif.Lemmas.WholeEnds
import Verif.Lemmas.UnwrapStep
import Verif.Lemmas.MarkTotal
import Verif.Spec.Flat

/-!
# Unwrapping without inheritance ends and succeeds (C77)

Without inheritance, unwrapping is a depth-first search: it sets the flag of each type that it comes to, goes on to the types that it mentions, and copies the shape of
a type into its aliases.  `h0` is the model before.
-/

namespace GoRaml.Flat

open GoRaml Spec

/-- The type is flagged as unwrapped. -/
def Up (h : St) (x : Addr) : Prop := ∃ b, h.base x = some b ∧ b.unwrapped = true

/-- The model before unwrapping: well-formed, without inheritance, and nothing is flagged. -/
structure Start (h0 : St) : Prop where
  shape : ∀ a b, h0.base a = some b → ∃ q, b.shape = some q ∧ ∀ f, q ≠ .unknown f
  edge : ∀ a y, Refers h0 a y → (h0.base y).isSome
  target : ∀ a b t, h0.base a = some b → b.alias = some t → (h0.base t).isSome
  plain : NoInheritance h0
  fresh : ∀ a b, h0.base a = some b → b.unwrapped = false ∧ b.visited = false

/-- `z` is `x` or what `x` is an alias of, directly or through other aliases. -/
def Along (h0 : St) : Addr → Addr → Prop := Relation.ReflTransGen fun a t => ∃ b, h0.base a = some b ∧ b.alias = some t

/-- The state during unwrapping: flags are set and aliases are filled, nothing else has changed. -/
structure U (h0 h : St) : Prop where
  pmaps : h.pmaps = h0.pmaps
  ppmaps : h.ppmaps = h0.ppmaps
  slices : h.slices = h0.slices
  gone : ∀ x, h0.base x = none → h.base x = none
  raw : ∀ x b, h.base x = some b → b.unwrapped = false → h0.base x = some b
  plain : ∀ x b, h0.base x = some b → b.alias = none → ∃ u, h.base x = some { b with unwrapped := u }
  aliases : ∀ x b0, h0.base x = some b0 → b0.alias ≠ none → ∃ b q0 q, h.base x = some b ∧ (b.visited = false ∧ b.name = b0.name ∧ b.location = b0.location) ∧ (h0.props b.facetDefs = [] ∧ h0.slice b.inherits = []) ∧ b0.shape = some q0 ∧
    b.shape = some q ∧ Kind q = Kind q0 ∧ ∀ y, ShapeEdge h0 q y → ∃ z bz, h0.base z = some bz ∧ bz.alias = none ∧ Up h z ∧ Refers h0 z y ∧ Along h0 x z ∧ ∀ u e, q = .union u e → ∃ e', bz.shape = some (.union u e')

/-- What a call does: flags are kept, and what it flags has all its parts flagged at the end. -/
structure Post (h0 h h' : St) : Prop where
  u : U h0 h'
  mono : ∀ x, Up h x → Up h' x
  closed : ∀ z b, h0.base z = some b → b.alias = none → Up h' z → ¬ Up h z → ∀ y, Refers h0 z y → Up h' y
  libs : h'.libs = h.libs
  dts : h'.dts = h.dts
  exts : h'.domainExts = h.domainExts
  anns : h'.fragAnnotationTypes = h.fragAnnotationTypes

theorem Post.refl {h0 h : St} (u : U h0 h) : Post h0 h h := ⟨u, fun _ h => h, fun _ _ _ _ h1 h2 => absurd h1 h2, rfl, rfl, rfl, rfl⟩

theorem Post.trans {h0 h h' h'' : St} (p : Post h0 h h') (q : Post h0 h' h'') : Post h0 h h'' where
  u := q.u
  mono := fun x hx => q.mono x (p.mono x hx)
  closed := fun z b hb ha h1 h2 y hy => by
    by_cases h3 : Up h' z
    · exact q.mono y (p.closed z b hb ha h3 h2 y hy)
    · exact q.closed z b hb ha h1 h3 y hy
  libs := q.libs.trans p.libs
  dts := q.dts.trans p.dts
  exts := q.exts.trans p.exts
  anns := q.anns.trans p.anns

/-- At most `k` types are not flagged. -/
def Few (h : St) (k : Nat) : Prop := ∃ L : List Addr, L.length ≤ k ∧ ∀ x b, h.base x = some b → b.unwrapped = false → x ∈ L

theorem Few.post {h0 h h' : St} {k : Nat} (f : Few h k) (u : U h0 h) (p : Post h0 h h') : Few h' k := by
  obtain ⟨L, h1, h2⟩ := f
  refine ⟨L, h1, fun x b hb hu => ?_⟩
  have h0b := p.u.raw x b hb hu
  cases hx : h.base x with
  | none =>
    exfalso
    by_cases ha : b.alias = none
    · obtain ⟨u', h3⟩ := u.plain x b h0b ha
      rw [hx] at h3; cases h3
    · obtain ⟨c, _, _, h3, _⟩ := u.aliases x b h0b ha
      rw [hx] at h3; cases h3
  | some c =>
    refine h2 x c hx ?_
    by_contra hc
    obtain ⟨d, h3, h4⟩ := p.mono x ⟨c, hx, by simpa using hc⟩
    rw [hb] at h3; cases h3
    rw [hu] at h4; cases h4

/-- The lengths of maps and slices. -/
def Bounded (h0 : St) (L : Nat) : Prop :=
  (∀ p, (h0.props p).length < L) ∧ (∀ p, (h0.patProps p).length < L) ∧ ∀ p, (h0.slice p).length < L

section
variable {h0 h : St}

theorem U.props (u : U h0 h) (p : Option Nat) : h.props p = h0.props p := by simp only [St.props, u.pmaps]
theorem U.pats (u : U h0 h) (p : Option Nat) : h.patProps p = h0.patProps p := by simp only [St.patProps, u.ppmaps]
theorem U.slice (u : U h0 h) (p : Option Nat) : h.slice p = h0.slice p := by simp only [St.slice, u.slices]

theorem U.edge (u : U h0 h) {q : Shape} {y : Addr} : ShapeEdge h q y ↔ ShapeEdge h0 q y := by
  constructor
  · intro e
    cases e with
    | items e => exact .items e
    | property e => rw [u.props] at e; exact .property e
    | pattern e => rw [u.pats] at e; exact .pattern e
    | member e => rw [u.slice] at e; exact .member e
  · intro e
    cases e with
    | items e => exact .items e
    | property e => rw [← u.props] at e; exact .property e
    | pattern e => rw [← u.pats] at e; exact .pattern e
    | member e => rw [← u.slice] at e; exact .member e

/-- Every type has a shape. -/
theorem U.shape (st : Start h0) (u : U h0 h) {x : Addr} {b : Base} (hb : h.base x = some b) : ∃ q, b.shape = some q := by
  cases h0b : h0.base x with
  | none => rw [u.gone x h0b] at hb; cases hb
  | some b0 =>
    by_cases ha : b0.alias = none
    · obtain ⟨v, h1⟩ := u.plain x b0 h0b ha
      rw [hb] at h1; cases h1
      obtain ⟨q, h2, _⟩ := st.shape x b0 h0b
      exact ⟨q, h2⟩
    · obtain ⟨b', _, q, h1, _, _, _, h2, _⟩ := u.aliases x b0 h0b ha
      rw [hb] at h1; cases h1
      exact ⟨q, h2⟩

theorem U.isSome (u : U h0 h) {x : Addr} (hx : (h0.base x).isSome) : (h.base x).isSome := by
  cases h0b : h0.base x with
  | none => rw [h0b] at hx; cases hx
  | some b0 =>
    by_cases ha : b0.alias = none
    · obtain ⟨v, h1⟩ := u.plain x b0 h0b ha
      rw [h1]; rfl
    · obtain ⟨b', _, q, h1, _⟩ := u.aliases x b0 h0b ha
      rw [h1]; rfl

/-- A change of a type that the state allows. -/
theorem U.upd (u : U h0 h) {a : Addr} {f : Base → Base} (hup : ∀ b, h.base a = some b → (f b).unwrapped = true)
    (hplain : ∀ b0 b, h0.base a = some b0 → b0.alias = none → h.base a = some b → ∃ v, f b = { b0 with unwrapped := v })
    (hal : ∀ b0 b, h0.base a = some b0 → b0.alias ≠ none → h.base a = some b → ∃ q0 q, ((f b).visited = false ∧ (f b).name = b0.name ∧ (f b).location = b0.location) ∧ (h0.props (f b).facetDefs = [] ∧ h0.slice (f b).inherits = []) ∧ b0.shape = some q0 ∧
      (f b).shape = some q ∧ Kind q = Kind q0 ∧ ∀ y, ShapeEdge h0 q y → ∃ z bz, h0.base z = some bz ∧ bz.alias = none ∧ Up h z ∧ Refers h0 z y ∧ Along h0 a z ∧ ∀ u e, q = .union u e → ∃ e', bz.shape = some (.union u e')) :
    U h0 { h with bases := h.bases.modify a f } := by
  have hb : ∀ x, St.base { h with bases := h.bases.modify a f } x = if x = a then (h.base a).map f else h.base x := fun x => Load.base_upd
  have hU : ∀ z, Up h z → Up { h with bases := h.bases.modify a f } z := by
    rintro z ⟨b, h1, h2⟩
    by_cases hz : z = a
    · subst hz; exact ⟨f b, by rw [hb, if_pos rfl, h1]; rfl, hup b h1⟩
    · exact ⟨b, by rw [hb, if_neg hz]; exact h1, h2⟩
  refine ⟨u.pmaps, u.ppmaps, u.slices, fun x hx => ?_, fun x b h1 h2 => ?_, fun x b h1 h2 => ?_, fun x b0 h1 h2 => ?_⟩
  · rw [hb]
    by_cases hx' : x = a
    · subst hx'; rw [if_pos rfl, u.gone x hx]; rfl
    · rw [if_neg hx']; exact u.gone x hx
  · rw [hb] at h1
    by_cases hx' : x = a
    · subst hx'
      rw [if_pos rfl] at h1
      obtain ⟨c, h3, rfl⟩ := Option.map_eq_some_iff.1 h1
      rw [hup c h3] at h2; cases h2
    · rw [if_neg hx'] at h1; exact u.raw x b h1 h2
  · rw [hb]
    by_cases hx' : x = a
    · subst hx'
      obtain ⟨v, h3⟩ := u.plain x b h1 h2
      obtain ⟨w, h4⟩ := hplain b _ h1 h2 h3
      exact ⟨w, by rw [if_pos rfl, h3, Option.map_some, h4]⟩
    · rw [if_neg hx']; exact u.plain x b h1 h2
  · rw [hb]
    by_cases hx' : x = a
    · subst hx'
      obtain ⟨b, _, _, h3, _⟩ := u.aliases x b0 h1 h2
      obtain ⟨q0, q, k1, k2, k3, k4, k5, k6⟩ := hal b0 b h1 h2 h3
      refine ⟨f b, q0, q, by rw [if_pos rfl, h3]; rfl, k1, k2, k3, k4, k5, fun y hy => ?_⟩
      obtain ⟨z, bz, m1, m2, m3, m4⟩ := k6 y hy
      exact ⟨z, bz, m1, m2, hU z m3, m4⟩
    · rw [if_neg hx']
      obtain ⟨b, q0, q, k0, k1, k2, k3, k4, k5, k6⟩ := u.aliases x b0 h1 h2
      refine ⟨b, q0, q, k0, k1, k2, k3, k4, k5, fun y hy => ?_⟩
      obtain ⟨z, bz, m1, m2, m3, m4⟩ := k6 y hy
      exact ⟨z, bz, m1, m2, hU z m3, m4⟩

/-- A change of the tables. -/
theorem U.tables (u : U h0 h) {h' : St} (e1 : h'.bases = h.bases) (e2 : h'.pmaps = h.pmaps) (e3 : h'.ppmaps = h.ppmaps) (e4 : h'.slices = h.slices) : U h0 h' := by
  have hb : ∀ x, h'.base x = h.base x := fun x => by unfold St.base; rw [e1]
  refine ⟨e2.trans u.pmaps, e3.trans u.ppmaps, e4.trans u.slices, fun x hx => (hb x).trans (u.gone x hx), fun x b h1 => u.raw x b ((hb x).symm.trans h1), fun x b h1 h2 => ?_,
    fun x b0 h1 h2 => ?_⟩
  · rw [hb]; exact u.plain x b h1 h2
  · rw [hb]
    obtain ⟨b, q0, q, k0, k1, k2, k3, k4, k5, k6⟩ := u.aliases x b0 h1 h2
    refine ⟨b, q0, q, k0, k1, k2, k3, k4, k5, fun y hy => ?_⟩
    obtain ⟨z, bz, m1, m2, ⟨c, m3, m5⟩, m4⟩ := k6 y hy
    exact ⟨z, bz, m1, m2, ⟨c, (hb z).trans m3, m5⟩, m4⟩

theorem up_bases {h h' : St} (e1 : h'.bases = h.bases) {x : Addr} : Up h' x ↔ Up h x := by
  unfold Up St.base; rw [e1]

end

/-- The contract of the recursive calls. -/
def RecOk (h0 : St) (k : Nat) (rec : Addr → M St Addr) : Prop :=
  ∀ h a, U h0 h → Few h k → (h0.base a).isSome → ∃ h', rec a h = (.ok a, h') ∧ Post h0 h h' ∧ Up h' a

section
variable {h0 : St} {k L : Nat} {rec : Addr → M St Addr}

theorem unwrapProps_flat (hrec : RecOk h0 k rec) {i : Nat} (hi : ∀ e ∈ h0.props (some i), (h0.base e.2.base).isSome) :
    ∀ (n j : Nat) (h : St), U h0 h → Few h k → (h0.props (some i)).length < n + j → j ≤ (h0.props (some i)).length → ∃ h', unwrapProps rec i n j h = (.ok (), h') ∧ Post h0 h h' ∧
      ∀ l e, j ≤ l → (h0.props (some i))[l]? = some e → Up h' e.2.base
  | 0, j, h, u, _, hn, hj => by omega
  | n + 1, j, h, u, hf, hn, hj => by
    unfold unwrapProps
    cases hk : (h.props (some i))[j]? with
    | none =>
      refine ⟨h, rfl, .refl u, fun l e hl he => ?_⟩
      rw [u.props] at hk
      have := (List.getElem?_eq_none_iff.1 hk)
      have := (List.getElem?_eq_some_iff.1 he).1
      omega
    | some kp =>
      have hk0 := hk
      rw [u.props] at hk0
      obtain ⟨h1, e1, p1, u1⟩ := hrec h kp.2.base u hf (hi kp (List.mem_of_getElem? hk0))
      have hk1 : (h1.props (some i))[j]? = some kp := by rw [p1.u.props]; exact hk0
      obtain ⟨h2, e2, p2, q2⟩ := unwrapProps_flat hrec hi n (j + 1) h1 p1.u (hf.post u p1) (by omega) (List.getElem?_eq_some_iff.1 hk0).1
      refine ⟨h2, ?_, p1.trans p2, fun l e hl he => ?_⟩
      · simp only
        rw [M.bind_of_ok e1, M.bind_of_ok (setPropAt_self (kp := (kp.1, { kp.2 with base := kp.2.base })) hk1), e2]
      · by_cases hlj : l = j
        · subst hlj
          rw [hk0] at he; cases he
          exact p2.mono _ u1
        · exact q2 l e (by omega) he

theorem unwrapPatProps_flat (hrec : RecOk h0 k rec) {i : Nat} (hi : ∀ e ∈ h0.patProps (some i), (h0.base e.2.base).isSome) :
    ∀ (n j : Nat) (h : St), U h0 h → Few h k → (h0.patProps (some i)).length < n + j → j ≤ (h0.patProps (some i)).length → ∃ h', unwrapPatProps rec i n j h = (.ok (), h') ∧ Post h0 h h' ∧
      ∀ l e, j ≤ l → (h0.patProps (some i))[l]? = some e → Up h' e.2.base
  | 0, j, h, u, _, hn, hj => by omega
  | n + 1, j, h, u, hf, hn, hj => by
    unfold unwrapPatProps
    cases hk : (h.patProps (some i))[j]? with
    | none =>
      refine ⟨h, rfl, .refl u, fun l e hl he => ?_⟩
      rw [u.pats] at hk
      have := (List.getElem?_eq_none_iff.1 hk)
      have := (List.getElem?_eq_some_iff.1 he).1
      omega
    | some kp =>
      have hk0 := hk
      rw [u.pats] at hk0
      obtain ⟨h1, e1, p1, u1⟩ := hrec h kp.2.base u hf (hi kp (List.mem_of_getElem? hk0))
      have hk1 : (h1.patProps (some i))[j]? = some kp := by rw [p1.u.pats]; exact hk0
      obtain ⟨h2, e2, p2, q2⟩ := unwrapPatProps_flat hrec hi n (j + 1) h1 p1.u (hf.post u p1) (by omega) (List.getElem?_eq_some_iff.1 hk0).1
      refine ⟨h2, ?_, p1.trans p2, fun l e hl he => ?_⟩
      · simp only
        rw [M.bind_of_ok e1, M.bind_of_ok (setPatPropAt_self (kp := (kp.1, { kp.2 with base := kp.2.base })) hk1), e2]
      · by_cases hlj : l = j
        · subst hlj
          rw [hk0] at he; cases he
          exact p2.mono _ u1
        · exact q2 l e (by omega) he

theorem unwrapMembers_flat (hrec : RecOk h0 k rec) {i : Nat} (hi : ∀ e ∈ h0.slice (some i), (h0.base e).isSome) :
    ∀ (n j : Nat) (h : St), U h0 h → Few h k → (h0.slice (some i)).length < n + j → j ≤ (h0.slice (some i)).length → ∃ h', unwrapMembers rec i n j h = (.ok (), h') ∧ Post h0 h h' ∧
      ∀ l e, j ≤ l → (h0.slice (some i))[l]? = some e → Up h' e
  | 0, j, h, u, _, hn, hj => by omega
  | n + 1, j, h, u, hf, hn, hj => by
    unfold unwrapMembers
    cases hk : (h.slice (some i))[j]? with
    | none =>
      refine ⟨h, rfl, .refl u, fun l e hl he => ?_⟩
      rw [u.slice] at hk
      have := (List.getElem?_eq_none_iff.1 hk)
      have := (List.getElem?_eq_some_iff.1 he).1
      omega
    | some kp =>
      have hk0 := hk
      rw [u.slice] at hk0
      obtain ⟨h1, e1, p1, u1⟩ := hrec h kp u hf (hi kp (List.mem_of_getElem? hk0))
      have hk1 : (h1.slice (some i))[j]? = some kp := by rw [p1.u.slice]; exact hk0
      obtain ⟨h2, e2, p2, q2⟩ := unwrapMembers_flat hrec hi n (j + 1) h1 p1.u (hf.post u p1) (by omega) (List.getElem?_eq_some_iff.1 hk0).1
      refine ⟨h2, ?_, p1.trans p2, fun l e hl he => ?_⟩
      · simp only
        rw [M.bind_of_ok e1, M.bind_of_ok (setSliceAt_self hk1), e2]
      · by_cases hlj : l = j
        · subst hlj
          rw [hk0] at he; cases he
          exact p2.mono _ u1
        · exact q2 l e (by omega) he

end

section
variable {h0 : St} {k n : Nat} {rec : Addr → M St Addr}

theorem whenProps_flat (hrec : RecOk h0 k rec) (hL : Bounded h0 n) {p : Option Nat} (hi : ∀ e ∈ h0.props p, (h0.base e.2.base).isSome) {h : St} (u : U h0 h) (hf : Few h k) :
    ∃ h', whenSome p (fun i => unwrapProps rec i n 0) h = (.ok (), h') ∧ Post h0 h h' ∧ ∀ e ∈ h0.props p, Up h' e.2.base := by
  cases p with
  | none => exact ⟨h, rfl, .refl u, fun _ he => by cases he⟩
  | some i =>
    obtain ⟨h', e1, p1, q1⟩ := unwrapProps_flat hrec hi n 0 h u hf (by have := hL.1 (some i); omega) (Nat.zero_le _)
    refine ⟨h', e1, p1, fun e he => ?_⟩
    obtain ⟨l, hl⟩ := List.mem_iff_getElem?.1 he
    exact q1 l e (Nat.zero_le _) hl

theorem whenPats_flat (hrec : RecOk h0 k rec) (hL : Bounded h0 n) {p : Option Nat} (hi : ∀ e ∈ h0.patProps p, (h0.base e.2.base).isSome) {h : St} (u : U h0 h) (hf : Few h k) :
    ∃ h', whenSome p (fun i => unwrapPatProps rec i n 0) h = (.ok (), h') ∧ Post h0 h h' ∧ ∀ e ∈ h0.patProps p, Up h' e.2.base := by
  cases p with
  | none => exact ⟨h, rfl, .refl u, fun _ he => by cases he⟩
  | some i =>
    obtain ⟨h', e1, p1, q1⟩ := unwrapPatProps_flat hrec hi n 0 h u hf (by have := hL.2.1 (some i); omega) (Nat.zero_le _)
    refine ⟨h', e1, p1, fun e he => ?_⟩
    obtain ⟨l, hl⟩ := List.mem_iff_getElem?.1 he
    exact q1 l e (Nat.zero_le _) hl

theorem whenMembers_flat (hrec : RecOk h0 k rec) (hL : Bounded h0 n) {p : Option Nat} (hi : ∀ e ∈ h0.slice p, (h0.base e).isSome) {h : St} (u : U h0 h) (hf : Few h k) :
    ∃ h', whenSome p (fun i => unwrapMembers rec i n 0) h = (.ok (), h') ∧ Post h0 h h' ∧ ∀ e ∈ h0.slice p, Up h' e := by
  cases p with
  | none => exact ⟨h, rfl, .refl u, fun _ he => by cases he⟩
  | some i =>
    obtain ⟨h', e1, p1, q1⟩ := unwrapMembers_flat hrec hi n 0 h u hf (by have := hL.2.2 (some i); omega) (Nat.zero_le _)
    refine ⟨h', e1, p1, fun e he => ?_⟩
    obtain ⟨l, hl⟩ := List.mem_iff_getElem?.1 he
    exact q1 l e (Nat.zero_le _) hl

theorem shapeAt_plain {h : St} {a : Addr} {b0 : Base} (u : U h0 h) (hb : h0.base a = some b0) (ha : b0.alias = none) : h.shapeAt a = b0.shape := by
  obtain ⟨v, h1⟩ := u.plain a b0 hb ha
  simp [St.shapeAt, h1]

/-- The parts of a type. -/
theorem unwrapTarget_flat (st : Start h0) (hrec : RecOk h0 k rec) (hL : Bounded h0 n) {a : Addr} {b0 : Base} (hb : h0.base a = some b0) (ha : b0.alias = none) {h : St} (u : U h0 h)
    (hf : Few h k) : ∃ h', unwrapTarget rec n a h = (.ok (), h') ∧ Post h0 h h' ∧ ∀ y, Refers h0 a y → Up h' y := by
  have hs := shapeAt_plain u hb ha
  have hs0 : h0.shapeAt a = b0.shape := by simp [St.shapeAt, hb]
  obtain ⟨q, hq, _⟩ := st.shape a b0 hb
  rw [hq] at hs hs0
  have hedge : ∀ y, ShapeEdge h0 q y → (h0.base y).isSome := fun y hy => st.edge a y ⟨q, hs0, hy⟩
  have key : ∀ {h' : St}, (∀ y, ShapeEdge h0 q y → Up h' y) → ∀ y, Refers h0 a y → Up h' y := by
    rintro h' hk y ⟨q', h1, h2⟩
    rw [hs0] at h1; cases h1
    exact hk y h2
  have e0 : unwrapTarget rec n a h = unwrapTargetShape rec n a (some q) h := by
    unfold unwrapTarget
    rw [M.bind_of_ok (m := M.get) (a := h) (s' := h) rfl, hs]
  rw [e0]
  have none_ : (∀ y, ¬ ShapeEdge h0 q y) → unwrapTargetShape rec n a (some q) h = (.ok (), h) →
      ∃ h', unwrapTargetShape rec n a (some q) h = (.ok (), h') ∧ Post h0 h h' ∧ ∀ y, Refers h0 a y → Up h' y :=
    fun h1 h2 => ⟨h, h2, .refl u, key fun y hy => absurd hy (h1 y)⟩
  cases q with
  | array f =>
    simp only [unwrapTargetShape]
    cases hi : f.items with
    | none => exact ⟨h, rfl, .refl u, key fun y hy => by cases hy with | items e => rw [hi] at e; cases e⟩
    | some i =>
      obtain ⟨h1, e1, p1, u1⟩ := hrec h i u hf (hedge i (.items hi))
      have hs1 := shapeAt_plain p1.u hb ha
      rw [hq] at hs1
      have hself : setArray a { arrayAt h1 a with items := some i } h1 = (.ok (), h1) := by
        have e2 : arrayAt h1 a = f := by simp [arrayAt, hs1]
        rw [e2, show ({ f with items := some i } : ArrayF) = f by rw [← hi]]
        exact setArray_self hs1
      refine ⟨h1, ?_, p1, key fun y hy => ?_⟩
      · exact (M.bind_of_ok e1).trans hself
      · cases hy with | items e => rw [hi] at e; cases e; exact u1
  | object f =>
    simp only [unwrapTargetShape]
    obtain ⟨h1, e1, p1, q1⟩ := whenProps_flat hrec hL (p := f.properties) (fun e he => hedge _ (.property he)) u hf
    have hs1 := shapeAt_plain p1.u hb ha
    rw [hq] at hs1
    obtain ⟨h2, e2, p2, q2⟩ := whenPats_flat hrec hL (p := f.patternProperties) (fun e he => hedge _ (.pattern he)) p1.u (hf.post u p1)
    refine ⟨h2, ?_, p1.trans p2, key fun y hy => ?_⟩
    · refine (M.bind_of_ok e1).trans ?_
      show whenSome (objectAt h1 a).patternProperties _ h1 = _
      rw [show objectAt h1 a = f by simp [objectAt, hs1]]
      exact e2
    · cases hy with
      | property e => exact p2.mono _ (q1 _ e)
      | pattern e => exact q2 _ e
  | union l e =>
    simp only [unwrapTargetShape]
    obtain ⟨h1, e1, p1, q1⟩ := whenMembers_flat hrec hL (p := l) (fun e he => hedge _ (.member he)) u hf
    exact ⟨h1, e1, p1, key fun y hy => by cases hy with | member e => exact q1 _ e⟩
  | _ => exact none_ (fun y hy => by cases hy) rfl

/-- Setting the flag. -/
theorem U.flag {h : St} {a : Addr} (u : U h0 h) : U h0 { h with bases := h.bases.modify a fun y => { y with unwrapped := true } } := by
  refine u.upd (fun _ _ => rfl) (fun b0 b h1 h2 h3 => ?_) fun b0 b h1 h2 h3 => ?_
  · obtain ⟨v, h4⟩ := u.plain a b0 h1 h2
    rw [h3] at h4; cases h4
    exact ⟨true, rfl⟩
  · obtain ⟨b', q0, q, k0, k1, k2, k3, k4, k5, k6⟩ := u.aliases a b0 h1 h2
    rw [h3] at k0; cases k0
    exact ⟨q0, q, k1, k2, k3, k4, k5, k6⟩

theorem alias_ok {q u : Shape} (hk : Kind q = Kind u) (hq : ∀ f, q ≠ .unknown f) : ∃ r, aliasShape q u = .ok r ∧ Kind r = Kind q ∧ (r = u ∨ ∃ e, r = .boolean e) := by
  cases q <;> cases u <;> first
    | exact ⟨_, rfl, rfl, .inl rfl⟩
    | exact ⟨_, rfl, rfl, .inr ⟨_, rfl⟩⟩
    | exact absurd rfl (hq _)
    | exact absurd hk (by simp [Kind])

/-- The kind of the shape of a type never changes. -/
theorem U.kind {h : St} (u : U h0 h) {x : Addr} {b0 b : Base} {q0 q : Shape} (h1 : h0.base x = some b0) (h2 : h.base x = some b) (h3 : b0.shape = some q0) (h4 : b.shape = some q) :
    Kind q = Kind q0 := by
  by_cases ha : b0.alias = none
  · obtain ⟨v, h5⟩ := u.plain x b0 h1 ha
    rw [h2] at h5; cases h5
    rw [show b0.shape = some q from h4] at h3; cases h3; rfl
  · obtain ⟨b', q0', q', k0, _, _, k3, k4, k5, _⟩ := u.aliases x b0 h1 ha
    rw [h2] at k0; cases k0
    rw [h3] at k3; cases k3
    rw [h4] at k4; cases k4
    exact k5

/-- Names and locations are kept. -/
theorem U.name {h : St} (u : U h0 h) {x : Addr} {b0 : Base} (h1 : h0.base x = some b0) : ∃ b, h.base x = some b ∧ b.name = b0.name ∧ b.location = b0.location := by
  by_cases ha : b0.alias = none
  · obtain ⟨v, h5⟩ := u.plain x b0 h1 ha
    exact ⟨_, h5, rfl, rfl⟩
  · obtain ⟨b, _, _, k0, k1, _⟩ := u.aliases x b0 h1 ha
    exact ⟨b, k0, k1.2⟩

/-- The parts of a flagged type are parts of flagged types that are not aliases; and it has no facets. -/
theorem U.parts (st : Start h0) {h : St} (u : U h0 h) {x : Addr} {b : Base} {q : Shape} (h2 : h.base x = some b) (hu : Up h x) (h4 : b.shape = some q) :
    (h0.props b.facetDefs = [] ∧ h0.slice b.inherits = []) ∧ ∀ y, ShapeEdge h0 q y → ∃ z bz, h0.base z = some bz ∧ bz.alias = none ∧ Up h z ∧ Refers h0 z y ∧ Along h0 x z ∧ ∀ u e, q = .union u e → ∃ e', bz.shape = some (.union u e') := by
  cases h1 : h0.base x with
  | none => rw [u.gone x h1] at h2; cases h2
  | some b0 =>
    by_cases ha : b0.alias = none
    · obtain ⟨v, h5⟩ := u.plain x b0 h1 ha
      rw [h2] at h5; cases h5
      exact ⟨⟨st.plain.facets x b0 h1, (st.plain.parents x b0 h1).2⟩, fun y hy => ⟨x, b0, h1, ha, hu, ⟨q, by simp only [St.shapeAt, h1]; exact h4, hy⟩, .refl, fun u e hq => ⟨e, hq ▸ h4⟩⟩⟩
    · obtain ⟨b', q0', q', k0, _, k2, k3, k4, k5, k6⟩ := u.aliases x b0 h1 ha
      rw [h2] at k0; cases k0
      rw [h4] at k4; cases k4
      exact ⟨k2, k6⟩

/-- Filling an alias. -/
theorem aliasTo_flat (st : Start h0) {h : St} {a t : Addr} {b0 : Base} (hb : h0.base a = some b0) (hal : b0.alias = some t) (u : U h0 h) (hua : Up h a) (hut : Up h t) :
    ∃ h', aliasTo a t h = (.ok a, h') ∧ U h0 h' ∧ (∀ x, Up h x ↔ Up h' x) ∧ h'.libs = h.libs ∧ h'.dts = h.dts ∧ h'.domainExts = h.domainExts ∧
      h'.fragAnnotationTypes = h.fragAnnotationTypes := by
  have ha : b0.alias ≠ none := by rw [hal]; simp
  obtain ⟨b, q0, q, k0, k1, k2, k3, k4, k5, k6⟩ := u.aliases a b0 hb ha
  obtain ⟨bt, hbt, hft⟩ := hut
  obtain ⟨w, hw⟩ := u.shape st hbt
  obtain ⟨t0, ht0⟩ := Option.isSome_iff_exists.1 (st.target a b0 t hb hal)
  obtain ⟨q1, w0, hq1, hw0, hkk⟩ := (st.plain.aliases a b0 t hb hal).1
  rw [k3] at hq1; cases hq1
  have hw0' : t0.shape = some w0 := by simpa [St.shapeAt, ht0] using hw0
  have hkt : Kind w = Kind w0 := u.kind ht0 hbt hw0' hw
  have hnu : ∀ f, q ≠ .unknown f := fun f hf => by
    obtain ⟨q2, h1, h2⟩ := st.shape a b0 hb
    rw [k3] at h1; cases h1
    rw [hf] at k5
    cases q0 <;> simp [Kind] at k5
    exact h2 _ rfl
  obtain ⟨r, hr, hrk, hre⟩ := alias_ok (k5.trans (hkk.trans hkt.symm)) hnu
  have hst : h.shapeAt t = some w := by simp [St.shapeAt, hbt, hw]
  have hsa : h.shapeAt a = some q := by simp [St.shapeAt, k0, k4]
  have hflag : ∀ b', h.base a = some b' → b'.unwrapped = true := by
    obtain ⟨b'', h1, h2⟩ := hua
    intro b' hb'
    rw [h1] at hb'; cases hb'; exact h2
  obtain ⟨pf, pe⟩ := u.parts st hbt ⟨bt, hbt, hft⟩ hw
  have hre' : ∀ y, ShapeEdge h0 r y → ShapeEdge h0 w y := by
    intro y hy
    rcases hre with rfl | ⟨e, rfl⟩
    · exact hy
    · cases hy
  -- the shape
  have u1 : U h0 { h with bases := h.bases.modify a fun x => { x with shape := some r } } := by
    refine u.upd (fun b' hb' => hflag b' hb') (fun b1 b2 h1 h2 _ => ?_) fun b1 b2 h1 h2 h3 => ?_
    · rw [hb] at h1; cases h1; exact absurd h2 ha
    · rw [hb] at h1; cases h1
      rw [k0] at h3; cases h3
      refine ⟨q0, r, k1, k2, k3, rfl, hrk.trans k5, fun y hy => ?_⟩
      obtain ⟨z, bz, m1, m2, m3, m4, m5, m6⟩ := pe y (hre' y hy)
      refine ⟨z, bz, m1, m2, m3, m4, .head ⟨b0, hb, hal⟩ m5, fun u e hu => ?_⟩
      rcases hre with rfl | ⟨e', rfl⟩
      · exact m6 u e hu
      · cases hu
  generalize hh1 : ({ h with bases := h.bases.modify a fun x => { x with shape := some r } } : St) = h1 at u1
  have hb1 : ∀ x, h1.base x = if x = a then (h.base a).map (fun x => { x with shape := some r }) else h.base x := fun x => by
    rw [← hh1]; exact Load.base_upd
  have up1 : ∀ x, Up h x ↔ Up h1 x := by
    intro x
    unfold Up
    rw [hb1]
    by_cases hx : x = a
    · subst hx; rw [if_pos rfl, k0]; simp
    · rw [if_neg hx]
  obtain ⟨src, hsrc, hsf⟩ := (up1 t).1 ⟨bt, hbt, hft⟩
  obtain ⟨ws, hws⟩ := u1.shape st hsrc
  obtain ⟨pf1, _⟩ := u1.parts st hsrc ⟨src, hsrc, hsf⟩ hws
  have hflag1 : ∀ b', h1.base a = some b' → b'.unwrapped = true := by
    obtain ⟨b'', h1, h2⟩ := (up1 a).1 hua
    intro b' hb'
    rw [h1] at hb'; cases hb'; exact h2
  let f2 : Base → Base := fun x =>
    { x with
      displayName := src.displayName
      description := src.description
      example_ := src.example_
      examples := src.examples
      inherits := src.inherits
      «alias» := src.alias
      default := src.default
      required := src.required
      facets := src.facets
      facetDefs := src.facetDefs
      domainProps := src.domainProps }
  have u2 : U h0 { h1 with bases := h1.bases.modify a f2 } := by
    refine u1.upd (fun b' hb' => hflag1 b' hb') (fun b1 b2 h1 h2 _ => ?_) fun b1 b2 h1 h2 h3 => ?_
    · rw [hb] at h1; cases h1; exact absurd h2 ha
    · obtain ⟨b', q0', q', m0, m1, _, m3, m4, m5, m6⟩ := u1.aliases a b1 h1 h2
      rw [h3] at m0; cases m0
      exact ⟨q0', q', m1, pf1, m3, m4, m5, m6⟩
  refine ⟨{ h1 with bases := h1.bases.modify a f2 }, ?_, u2, fun x => (up1 x).trans ?_, ?_, ?_, ?_, ?_⟩
  · unfold aliasTo
    rw [M.bind_of_ok (m := Heap.getShape a) (a := q) (s' := h) (by simp [Heap.getShape, hsa]), M.bind_of_ok (m := Heap.getShape t) (a := w) (s' := h) (by simp [Heap.getShape, hst]), M.bind_of_ok (m := M.lift (aliasShape q w)) (a := r) (s' := h) (by simp [M.lift, hr]),
      M.bind_of_ok (m := setShape a r) (a := ()) (s' := h1) (by rw [← hh1]; rfl), M.bind_of_ok (getBase_ok.2 ⟨hsrc, rfl⟩)]
    rfl
  · unfold Up
    have e : St.base { h1 with bases := h1.bases.modify a f2 } x = if x = a then (h1.base a).map f2 else h1.base x := Load.base_upd
    rw [e]
    by_cases hx : x = a
    · subst hx
      rw [if_pos rfl]
      cases h1.base x with
      | none => simp
      | some c => simp [f2]
    · rw [if_neg hx]
  all_goals rw [← hh1]

/-- The whole call. -/
theorem unwrap_flat (st : Start h0) {L : Nat} (hL : Bounded h0 L) : ∀ (n k : Nat), k + L < n → RecOk h0 k (unwrap n) := by
  intro n
  induction n with
  | zero => intro k hk; omega
  | succ n ih =>
    intro k hk h a u hf ha
    obtain ⟨b, hb⟩ := Option.isSome_iff_exists.1 (u.isSome ha)
    obtain ⟨q, hq⟩ := u.shape st hb
    unfold unwrap
    rw [M.bind_of_ok (getBase_ok.2 ⟨hb, rfl⟩)]
    simp only [hq]
    by_cases hfl : b.unwrapped = true
    · rw [if_pos hfl]
      exact ⟨h, rfl, .refl u, b, hb, hfl⟩
    have hfl' : b.unwrapped = false := by simpa using hfl
    rw [if_neg hfl]
    have hb0 := u.raw a b hb hfl'
    have u1 : U h0 { h with bases := h.bases.modify a fun y => { y with unwrapped := true } } := u.flag
    rw [M.bind_of_ok (m := Heap.updBase a fun y => { y with unwrapped := true }) (a := ()) (s' := { h with bases := h.bases.modify a fun y => { y with unwrapped := true } }) rfl]
    have hb1' : ∀ x, St.base { h with bases := h.bases.modify a fun y => { y with unwrapped := true } } x = if x = a then (h.base a).map (fun y => { y with unwrapped := true }) else h.base x :=
      fun x => Load.base_upd
    have e1 : St.libs { h with bases := h.bases.modify a fun y => { y with unwrapped := true } } = h.libs := rfl
    have e2 : St.dts { h with bases := h.bases.modify a fun y => { y with unwrapped := true } } = h.dts := rfl
    have e4 : St.fragAnnotationTypes { h with bases := h.bases.modify a fun y => { y with unwrapped := true } } = h.fragAnnotationTypes := rfl
    have e3 : St.domainExts { h with bases := h.bases.modify a fun y => { y with unwrapped := true } } = h.domainExts := rfl
    generalize ({ h with bases := h.bases.modify a fun y => { y with unwrapped := true } } : St) = h1 at u1 hb1' e1 e2 e3 e4
    have hua : Up h1 a := ⟨{ b with unwrapped := true }, by rw [hb1', if_pos rfl, hb]; rfl, rfl⟩
    have hup : ∀ x, Up h1 x ↔ Up h x ∨ x = a := by
      intro x
      by_cases hx : x = a
      · subst hx; simp [hua]
      · unfold Up; rw [hb1', if_neg hx]; simp [hx]
    obtain ⟨Ls, hlen, hmem⟩ := hf
    have hin := hmem a b hb hfl'
    have hk0 : 0 < k := Nat.lt_of_lt_of_le (List.length_pos_of_mem hin) hlen
    have hf1 : Few h1 (k - 1) := by
      refine ⟨Ls.erase a, by rw [List.length_erase_of_mem hin]; omega, fun x c hc hcu => ?_⟩
      by_cases hx : x = a
      · subst hx
        obtain ⟨d, h1, h2⟩ := hua
        rw [hc] at h1; cases h1
        rw [hcu] at h2; cases h2
      · rw [hb1', if_neg hx] at hc
        exact (List.mem_erase_of_ne hx).2 (hmem x c hc hcu)
    have hrec := ih (k - 1) (by omega)
    cases hal : b.alias with
    | some t =>
      simp only
      obtain ⟨h2, r2, p2, u2⟩ := hrec h1 t u1 hf1 (st.target a b t hb0 hal)
      have u3 : U h0 { h2 with shapes := h2.shapes ++ [a] } := p2.u.tables rfl rfl rfl rfl
      obtain ⟨h4, r4, u4, up4, l4, d4, x4, f4⟩ := aliasTo_flat st (h := { h2 with shapes := h2.shapes ++ [a] }) hb0 hal u3 (p2.mono a hua) u2
      refine ⟨h4, ?_, ⟨u4, fun x hx => (up4 x).1 (p2.mono x ((hup x).2 (.inl hx))), fun z bz hz hza h5 h6 y hy => ?_, ?_, ?_, ?_, ?_⟩, (up4 a).1 (p2.mono a hua)⟩
      · rw [M.bind_of_ok r2, M.bind_of_ok (m := Heap.putShape a) (a := ()) (s' := { h2 with shapes := h2.shapes ++ [a] }) rfl, r4]
      · have hz2 : Up h2 z := (up4 z).2 h5
        by_cases hz1 : Up h1 z
        · rcases (hup z).1 hz1 with h7 | h7
          · exact absurd h7 h6
          · subst h7
            rw [hb0] at hz; cases hz
            rw [hal] at hza; cases hza
        · exact (up4 y).1 (p2.closed z bz hz hza hz2 hz1 y hy)
      · exact l4.trans (p2.libs.trans e1)
      · exact d4.trans (p2.dts.trans e2)
      · exact x4.trans (p2.exts.trans e3)
      · exact f4.trans (p2.anns.trans e4)
    | none =>
      simp only
      obtain ⟨v, hv⟩ := u1.plain a b hb0 hal
      obtain ⟨hlink, hinh⟩ := st.plain.parents a b hb0
      have hpar : unwrapParents (unwrap n) n a h1 = (.ok none, h1) := by
        unfold unwrapParents
        refine (M.bind_of_ok (getBase_ok.2 ⟨hv, rfl⟩)).trans ?_
        simp only [hlink, u1.slice, hinh]
        split
        · rename_i h5; simp_all
        · rfl
      rw [M.bind_of_ok hpar]
      obtain ⟨h2, r2, p2, q2⟩ := unwrapTarget_flat st hrec (n := n) ⟨fun p => Nat.lt_of_lt_of_le (hL.1 p) (by omega), fun p => Nat.lt_of_lt_of_le (hL.2.1 p) (by omega),
        fun p => Nat.lt_of_lt_of_le (hL.2.2 p) (by omega)⟩ hb0 hal u1 hf1
      rw [M.bind_of_ok r2]
      obtain ⟨v2, hv2⟩ := p2.u.plain a b hb0 hal
      rw [M.bind_of_ok (getBase_ok.2 ⟨hv2, rfl⟩)]
      have hfac : (whenSome b.facetDefs fun i => unwrapFacetDefs (unwrap n) a i n 0) h2 = (.ok (), h2) := by
        cases hd : b.facetDefs with
        | none => rfl
        | some i =>
          have he : h2.props (some i) = [] := by rw [p2.u.props, ← hd]; exact st.plain.facets a b hb0
          obtain ⟨m, rfl⟩ : ∃ m, n = m + 1 := ⟨n - 1, by omega⟩
          simp only [whenSome, unwrapFacetDefs, he, List.getElem?_nil]
      rw [M.bind_of_ok hfac]
      have u3 : U h0 { h2 with shapes := h2.shapes ++ [a] } := p2.u.tables rfl rfl rfl rfl
      refine ⟨{ h2 with shapes := h2.shapes ++ [a] }, rfl, ⟨u3, fun x hx => p2.mono x ((hup x).2 (.inl hx)), fun z bz hz hza h5 h6 y hy => ?_, p2.libs.trans e1, p2.dts.trans e2, p2.exts.trans e3, p2.anns.trans e4⟩,
        p2.mono a hua⟩
      by_cases hz1 : Up h1 z
      · rcases (hup z).1 hz1 with h7 | h7
        · exact absurd h7 h6
        · subst h7
          exact q2 y hy
      · exact p2.closed z bz hz hza h5 hz1 y hy

end

end GoRaml.Flat
