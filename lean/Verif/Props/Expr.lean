import Verif.Spec.Expr
import Verif.Lemmas.Validate
import Verif.Lemmas.LoadParse
import Verif.Props.Load

/-!
# Type expressions mean what they say (C33)
-/

namespace GoRaml

open Spec

theorem integerOK_plain {v : GoVal} : IntegerOK {} v ↔ ∃ i, IntegerValue v i := by
  simp [IntegerOK, Between]

theorem integer_plain {E : Ext} {v : GoVal} (hv : GoValue v) :
    (InRange v ∧ IntegerOK {} v) ∨ (¬ InRange v ∧ ∃ x, v = .float x ∧ IntegerOK {} (.int (E.truncOverflow x).toInt)) ↔ IsNumber v := by
  simp only [integerOK_plain]
  constructor
  · rintro (⟨_, i, h⟩ | ⟨_, x, h, _⟩)
    · cases h
      · exact .inl ⟨_, rfl⟩
      · exact .inr (.inl ⟨_, rfl⟩)
      · exact .inr (.inr ⟨_, rfl⟩)
      · exact .inr (.inr ⟨_, rfl⟩)
    · exact .inr (.inr ⟨x, h⟩)
  · rintro (⟨z, rfl⟩ | ⟨n, rfl⟩ | ⟨x, rfl⟩)
    · cases hv with
      | int _ h1 h2 => exact .inl ⟨⟨h1, h2⟩, _, .int z⟩
    · cases hv with
      | uint _ h1 => exact .inl ⟨h1, _, .uint n⟩
    · by_cases hr : InRange (.float x)
      · refine .inl ⟨hr, ?_⟩
        cases x with
        | fin q =>
          rcases lt_or_ge q 0 with h | h
          · exact ⟨_, .floatNeg q h⟩
          · exact ⟨_, .floatPos q h⟩
        | _ => exact absurd hr (by simp [InRange])
      · exact .inr ⟨hr, x, rfl, _, .int _⟩

theorem number_plain {conv : Int → F64} {v : GoVal} : NumberOK conv {} v ↔ IsNumber v := by
  simp only [NumberOK, Between]
  constructor
  · rintro ⟨x, h, _⟩
    cases h
    · exact .inl ⟨_, rfl⟩
    · exact .inr (.inl ⟨_, rfl⟩)
    · exact .inr (.inr ⟨_, rfl⟩)
  · rintro (⟨z, rfl⟩ | ⟨n, rfl⟩ | ⟨x, rfl⟩)
    · exact ⟨_, .int z, by simp⟩
    · exact ⟨_, .uint n, by simp⟩
    · exact ⟨_, .float x, by simp⟩

theorem valid_keyword {E : Ext} {h : St} {a : Addr} {p : Prim} {b : Base} (hb : h.base a = some b) (hs : b.shape = some (emptyShape p.text)) {v : GoVal}
    (hv : GoValue v) : Valid E h a v ↔ KeywordOK E v p := by
  have hsh : h.shapeAt a = some (emptyShape p.text) := by simp [St.shapeAt, hb, hs]
  rw [valid_iff_step]
  unfold Step
  rw [hsh]
  cases p
  case integer => simp only [emptyShape, Prim.text, KeywordOK]; exact integer_plain hv
  case number => simp only [emptyShape, Prim.text, KeywordOK]; exact number_plain
  case datetime => simp [emptyShape, Prim.text, KeywordOK, DateTimeOK, TimeOK]
  all_goals simp [emptyShape, Prim.text, KeywordOK, St.slice, St.props, St.patProps, StringOK, FileOK, BooleanOK, TimeOK, ObjectOK, ArrayOK, PatternRule, Declares, Between]

/-- The values of the types that the names in an expression stand for, read in the file `loc`. -/
def Spec.RefValues (E : Ext) (h : St) (loc text : String) (v : GoVal) : Prop := ∃ ref, getReferenced h Lib.types text loc = .ok ref ∧ Valid E h ref v

theorem layout_valid {E : Ext} {h : St} {lo : Addr} {loc : String} (hal : ∀ x b ref, h.base x = some b → b.alias = some ref → ∀ v, Valid E h x v ↔ Valid E h ref v) :
    ∀ e : Rdt, (∀ a, (layout h lo loc e).at_ True a → ∀ v, GoValue v → (Valid E h a v ↔ Meaning E (RefValues E h loc) e v)) ∧
      (∀ ms, (layout h lo loc e).members ms → ∀ v, GoValue v → ((∃ m ∈ ms, Valid E h m v) ↔ Meaning E (RefValues E h loc) e v)) := by
  have last : ∀ e, (layout h lo loc e) = .last lo (layout h lo loc e).at_ →
      (∀ a, (layout h lo loc e).at_ True a → ∀ v, GoValue v → (Valid E h a v ↔ Meaning E (RefValues E h loc) e v)) →
      (∀ ms, (layout h lo loc e).members ms → ∀ v, GoValue v → ((∃ m ∈ ms, Valid E h m v) ↔ Meaning E (RefValues E h loc) e v)) := by
    intro e h1 h2 ms h3 v hv
    rw [h1] at h3
    obtain ⟨m, rfl, _, hm⟩ := h3
    simpa using h2 m hm v hv
  intro e
  induction e with
  | prim p =>
    refine (fun h => ⟨h, last _ rfl h⟩) ?_
    rintro a ⟨b, hb, _, _, hs⟩ v hv
    exact valid_keyword hb hs hv
  | ref x y =>
    refine (fun h => ⟨h, last _ rfl h⟩) ?_
    rintro a ⟨b, ref, hb, _, href, h1, _⟩ v _
    rw [hal a b ref hb (h1 trivial) v]
    have : (∃ r, getReferenced h Lib.types (refText x y) loc = .ok r ∧ Valid E h r v) ↔ Valid E h ref v := by
      rw [href]
      constructor
      · rintro ⟨r, h1, h2⟩; cases h1; exact h2
      · exact fun h1 => ⟨ref, rfl, h1⟩
    rw [← this]
    cases y <;> simp [Meaning, RefValues, refText]
  | group e ih => exact ⟨ih.1, last (.group e) rfl ih.1⟩
  | optional e ih =>
    refine (fun h => ⟨h, last _ rfl h⟩) ?_
    rintro a ⟨b, i, m, n, bn, hb, _, hs, hsl, _, hm, _, hn, _, hns⟩ v hv
    rw [valid_iff_step]
    unfold Step
    have hsh : h.shapeAt a = some (.union (some i) none) := by simp [St.shapeAt, hb, hs]
    rw [hsh]
    simp only [hsl, List.mem_cons, List.not_mem_nil, or_false, exists_eq_or_imp, exists_eq_left, Meaning]
    rw [ih.1 m hm v hv]
    have : Valid E h n v ↔ v = .nil := by
      rw [valid_iff_step]
      unfold Step
      have : h.shapeAt n = some .nil := by simp [St.shapeAt, hn, hns]
      rw [this]
    rw [this]
  | array e ih =>
    refine (fun h => ⟨h, last _ rfl h⟩) ?_
    rintro a ⟨b, f, i, hb, _, hs, hi, hf, _, hm⟩ v hv
    rw [valid_iff_step]
    unfold Step
    have hsh : h.shapeAt a = some (.array f) := by simp [St.shapeAt, hb, hs]
    rw [hsh]
    cases hf trivial
    simp only [ArrayOK, Between, Meaning]
    constructor
    · rintro ⟨l, rfl, _, h2, _⟩
      refine ⟨l, rfl, fun x hx => (ih.1 i hm x ?_).1 (h2 i rfl x hx)⟩
      cases hv with | arr _ h => exact h x hx
    · rintro ⟨l, rfl, h2⟩
      refine ⟨l, rfl, by simp, fun j hj x hx => ?_, by simp⟩
      cases hj
      refine (ih.1 i hm x ?_).2 (h2 x hx)
      cases hv with | arr _ h => exact h x hx
  | union l r ihl ihr =>
    have hmem : ∀ ms, (layout h lo loc (.union l r)).members ms → ∀ v, GoValue v → ((∃ m ∈ ms, Valid E h m v) ↔ Meaning E (RefValues E h loc) (.union l r) v) := by
      rintro ms ⟨m, rest, rfl, _, hm, hrest⟩ v hv
      simp only [List.mem_cons, exists_eq_or_imp, Meaning]
      rw [ihl.1 m hm v hv, ihr.2 rest hrest v hv]
    refine ⟨?_, hmem⟩
    rintro a ⟨b, i, hb, _, hs, hms⟩ v hv
    rw [valid_iff_step]
    unfold Step
    have hsh : h.shapeAt a = some (.union (some i) none) := by simp [St.shapeAt, hb, hs]
    rw [hsh]
    exact hmem _ hms v hv

/-! ## C33 -/

/-- C33, first half: the type expressions that decoding leaves to resolve are, after resolution, laid out in the model as they are written: `T?` as a union of
`T` and nil, `T[]` as an array of `T`, `A | B` as a union with these members, names as aliases of the types they name (or, if there are facets, as
types that inherit from them), keywords as plain types, and parentheses as nothing. -/
theorem c33_laid_out (E : Env) (n m : Nat) (path text : String) (f : FragRef) (s s' : St) (hfile : E.file path = some text)
    (hd : decodeEntry E n text path {} = (.ok f, s)) (hr : resolveShapes E n m s = (.ok (), s')) (a : Addr) (b : Base) (facets : Option (List YNode)) (e : Rdt)
    (hb : s.base a = some b) (hs : b.shape = some (.unknown facets)) (hl : b.link = none) (hc : b.type ≠ "composite") (he : parseTypeExpression b.type = some e) :
    (layout s' 0 b.location e).at_ (facets = none) a := by
  have hrun := Load.decodeEntry_keeps (K := Load.anyCtl) trivial (Load.anyRegs E) n hfile trivial
  unfold Load.Run at hrun
  rw [hd] at hrun
  obtain ⟨hw1, hx1, _, _⟩ := hrun
  obtain ⟨hw2, _, hu2, _, hres⟩ := Load.resolveLoop_ok (K := Load.anyCtl) trivial (Load.anyRegs E) (fun _ _ => trivial) n m true s s' hw1 hx1 hr
  rcases hres a b id hb ⟨facets, hs⟩ with h | h
  · exfalso
    rcases hw2.settled a b h id with ⟨_, _, hm⟩ | ht
    · rw [hu2] at hm; cases hm
    · exact Load.Unk.not_typed ⟨facets, hs⟩ ht
  · exact (Load.layout_lower (Nat.zero_le _) e).1 _ _ (h facets e hs hl hc he)

/-- Decoding leaves such an expression: `b.U[] | nil`. -/
example : exResult (decodeEntry (exFilesEnv exFiles) 20 "#%RAML 1.0 Library\na" "a.raml" {}) = some (.library 0) ∧
    exResult (resolveShapes (exFilesEnv exFiles) 20 20 (decodeEntry (exFilesEnv exFiles) 20 "#%RAML 1.0 Library\na" "a.raml" {}).2) = some () ∧
    ((decodeEntry (exFilesEnv exFiles) 20 "#%RAML 1.0 Library\na" "a.raml" {}).2.base 1).map (fun b => (b.type, b.link, b.location)) =
      some ("b.U[] | nil", none, "a.raml") ∧
    ((decodeEntry (exFilesEnv exFiles) 20 "#%RAML 1.0 Library\na" "a.raml" {}).2.shapeAt 1).map Kind = some "unknown" ∧
    parseTypeExpression "b.U[] | nil" = some (.union (.array (.ref "b.U" none)) (.prim .nil)) :=
  ⟨by decide +kernel, by decide +kernel, by decide +kernel, by decide +kernel, by decide +kernel⟩

/-- C33, second half: in every heap in which a type expression without facets is laid out and aliases mean what they are aliases of, its values are exactly those that the expression
says, given the values of the types that it names. -/
theorem c33_meaning (E : Ext) (h : St) (lo : Addr) (loc : String) (hal : ∀ x b ref, h.base x = some b → b.alias = some ref → ∀ v, Valid E h x v ↔ Valid E h ref v)
    (e : Rdt) (a : Addr) (hl : (layout h lo loc e).at_ True a) (v : GoVal) (hv : GoValue v) : Valid E h a v ↔ Meaning E (RefValues E h loc) e v :=
  (layout_valid hal e).1 a hl v hv

/-- The type `(U[])?` at 0, with its parts, and `U`, strings of three or more characters, at 4. -/
def exExpr : St :=
  { bases := [{ type := "union", shape := some (.union (some 0) none) }, { type := "array", shape := some (.array { items := some 3 }) },
      { type := "nil", shape := some .nil }, { type := "string", shape := some (.string { minLength := some 3 }), «alias» := some 4 },
      { type := "string", shape := some (.string { minLength := some 3 }) }]
    slices := [[1, 2]]
    fragments := [("f", .library 0)]
    libs := [{ location := "f", types := [("U", 4)] }] }

/-- The hypotheses are met. -/
example : (layout exExpr 0 "f" (.optional (.group (.array (.ref "U" none))))).at_ True 0 ∧
    (∀ x b ref, exExpr.base x = some b → b.alias = some ref → ∀ v, Valid Props.exE exExpr x v ↔ Valid Props.exE exExpr ref v) := by
  refine ⟨⟨_, 0, 1, 2, _, rfl, ⟨_, rfl, by decide +kernel, by decide +kernel⟩, rfl, rfl, by decide, ⟨_, { items := some 3 }, 3, rfl, ⟨_, rfl, by decide +kernel, by decide +kernel⟩, rfl, rfl, fun _ => rfl, by decide,
    ⟨_, 4, rfl, ⟨_, rfl, by decide +kernel, by decide +kernel⟩, by decide +kernel, fun _ => rfl, fun h => absurd trivial h⟩⟩, by decide, rfl,
    ⟨_, rfl, by decide +kernel, by decide +kernel⟩, rfl⟩, ?_⟩
  intro x b ref hx hal v
  match x with
  | 0 | 1 | 2 | 4 => cases hx; cases hal
  | 3 =>
    cases hx; cases hal
    rw [valid_iff_step, valid_iff_step (a := 4)]
    rfl
  | n + 5 => simp [St.base, exExpr] at hx

end GoRaml
