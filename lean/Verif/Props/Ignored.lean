import Verif.Spec.Ignored
import Verif.Props.Decode
import Verif.Props.Expr
import Verif.Props.Lineage
import Verif.Lemmas.Mean

/-!
# Facets that are written but have no effect (C70)
-/

namespace GoRaml.Props

open GoRaml GoRaml.Spec

theorem given_tree {E : Env} {s : St} {loc : String} {v : YNode} {name : String} {a : Addr} {e : Rdt} (h : Describes E s loc v name a) (hg : TypeGiven v e) :
    ∃ b, s.base a = some b ∧ TreeHas E s loc (Describes E s loc) (some (facetNodes v.content)) b e := by
  obtain ⟨hv, t, ht, hs, htag, hk, hj, hp⟩ := hg
  obtain ⟨b, es, t', facets, src, h1, h2, h3, h4, h5, h6, h7⟩ := describes_parts h
  unfold Parts at h4
  rw [if_pos hv] at h4
  obtain ⟨rfl, rfl, rfl⟩ := h4
  rw [ht] at h6
  have hne : t.value ≠ "" := fun e => by
    rw [e, show parseTypeExpression "" = none by decide +kernel] at hp
    cases hp
  cases h6 with
  | empty _ _ hz => exact absurd hz hne
  | null _ hz => rw [hz] at htag; simp at htag
  | keyword _ _ hz => exact absurd hz hk
  | json _ _ hz => exact absurd hz hj
  | expr _ _ _ _ _ =>
    obtain ⟨tree, k1, k2⟩ := h7
    rw [hp] at k1
    cases k1
    exact ⟨b, h1, k2⟩
  | included _ hz => rw [hz] at htag; simp at htag
  | parents hz => rw [hz] at hs; simp at hs

theorem tree_parens {E : Env} {s : St} {loc : String} {R : YNode → String → Addr → Prop} {facets : Option (List YNode)} {b : Base} {e t : Rdt} (hp : Parens e t)
    (h : TreeHas E s loc R facets b t) : TreeHas E s loc R facets b e := by
  induction hp with
  | none => exact h
  | more _ ih => exact ih h

theorem no_facets {E : Env} {s : St} {loc : String} {R : YNode → String → Addr → Prop} {p : Prim} {sh : Shape} (hu : p ≠ .union) (hk : Kind sh = Kind (emptyShape p.text))
    (h : FacetsRead E s loc R True [] sh) : sh = emptyShape p.text ∨ ∃ f, sh = .object f ∧ p = .object ∧ f.additionalProperties = none ∧ f.minProperties = none ∧
      f.maxProperties = none ∧ s.props f.properties = [] ∧ s.patProps f.patternProperties = [] := by
  have nf : ∀ {α : Type} {k : String} {d x : α} {read : YNode → α → Prop}, Reads k [] d read x → x = d := fun h => h
  cases sh with
  | string f =>
    obtain ⟨h1, h2, h3, h4⟩ := h
    have : f = {} := by cases f; cases nf h1; cases nf h2; cases nf h3; cases nf h4; rfl
    subst this
    cases p <;> first | exact .inl rfl | (exfalso; revert hk; decide)
  | integer f =>
    obtain ⟨h1, h2, h3, h4, h5⟩ := h
    have : f = {} := by cases f; cases nf h1; cases nf h2; cases nf h3; cases nf h4; cases nf h5; rfl
    subst this
    cases p <;> first | exact .inl rfl | (exfalso; revert hk; decide)
  | number f =>
    obtain ⟨h1, h2, h3, h4, h5⟩ := h
    have : f = {} := by cases f; cases nf h1; cases nf h2; cases nf h3; cases nf h4; cases nf h5; rfl
    subst this
    cases p <;> first | exact .inl rfl | (exfalso; revert hk; decide)
  | file f =>
    obtain ⟨h1, h2, h3⟩ := h
    have : f = {} := by cases f; cases nf h1; cases nf h2; cases nf h3; rfl
    subst this
    cases p <;> first | exact .inl rfl | (exfalso; revert hk; decide)
  | boolean e =>
    have h : e = none := h
    subst h
    cases p <;> first | exact .inl rfl | (exfalso; revert hk; decide)
  | datetime e =>
    have h : e = none := h
    subst h
    cases p <;> first | exact .inl rfl | (exfalso; revert hk; decide)
  | array f =>
    obtain ⟨h1, h2, h3, h4⟩ := h
    have h4 := nf (h4 trivial)
    have : f = {} := by cases f; cases nf h1; cases nf h2; cases nf h3; cases h4; rfl
    subst this
    cases p <;> first | exact .inl rfl | (exfalso; revert hk; decide)
  | object f =>
    obtain ⟨f1, _, _, f4, f5, f6⟩ := h
    have hp : p = .object := by
      replace hk : "object" = Kind (emptyShape p.text) := hk
      cases p <;> first | rfl | (exfalso; revert hk; decide)
    exact .inr ⟨f, rfl, hp, nf f1, nf f4, nf f5, by obtain ⟨l, h1, h2⟩ := f6.props; cases h1; exact h2, by obtain ⟨l, h1, h2⟩ := f6.patProps; cases h1; exact h2⟩
  | any => cases p <;> first | exact .inl rfl | (exfalso; revert hk; decide)
  | nil => cases p <;> first | exact .inl rfl | (exfalso; revert hk; decide)
  | datetimeOnly => cases p <;> first | exact .inl rfl | (exfalso; revert hk; decide)
  | dateOnly => cases p <;> first | exact .inl rfl | (exfalso; revert hk; decide)
  | timeOnly => cases p <;> first | exact .inl rfl | (exfalso; revert hk; decide)
  | union u e =>
    replace hk : "union" = Kind (emptyShape p.text) := hk
    cases p <;> first | exact absurd rfl hu | (exfalso; revert hk; decide)
  | json u e =>
    replace hk : "json" = Kind (emptyShape p.text) := hk
    cases p <;> (exfalso; revert hk; decide)
  | unknown u =>
    replace hk : "unknown" = Kind (emptyShape p.text) := hk
    cases p <;> (exfalso; revert hk; decide)
  | recursive u =>
    replace hk : "recursive" = Kind (emptyShape p.text) := hk
    cases p <;> (exfalso; revert hk; decide)

/-- C70: of a type that is declared with a keyword in parentheses, all facets written next to it are without effect. -/
theorem c70_keyword_in_parentheses {E : Env} {s : St} {loc : String} {v : YNode} {name : String} {a : Addr} {p : Prim} {t : Rdt} (h : Describes E s loc v name a)
    (hg : TypeGiven v t) (hp : Parens (.prim p) t) (hu : p ≠ .union) : ∀ x, GoValue x → (Valid E.toExt s a x ↔ KeywordOK E.toExt x p) := by
  obtain ⟨b, hb, ht⟩ := given_tree h hg
  obtain ⟨k1, ⟨sh, k2, k3, hn⟩, k4, _⟩ := tree_parens hp ht
  clear hn
  rw [k1] at k3
  intro x hx
  have hsh : s.shapeAt a = some sh := by simp [St.shapeAt, hb, k2]
  rcases no_facets hu k3 (k4 sh k2) with e | ⟨f, rfl, rfl, e1, e4, e5, e6, e7⟩
  · exact valid_keyword hb (e ▸ k2) hx
  · rw [valid_iff_step]
    unfold Step
    rw [hsh]
    simp [KeywordOK, ObjectOK, PatternRule, Declares, Between, e1, e4, e5, e6, e7]

/-- C70: a type that is declared with a union, or with `T?`, has no facets, whatever is written next to it. -/
theorem c70_union {E : Env} {s : St} {loc : String} {v : YNode} {name : String} {a : Addr} {e e' t : Rdt} (h : Describes E s loc v name a)
    (hg : TypeGiven v t) (hp : Parens (.union e e') t ∨ Parens (.optional e) t) : ∃ b u r, s.base a = some b ∧ b.shape = some (.union u r) ∧ s.facetMap b.facets = [] := by
  obtain ⟨b, hb, ht⟩ := given_tree h hg
  have key : Has E s loc (Describes E s loc) True "union" (some (facetNodes v.content)) b := by
    rcases hp with hp | hp
    · exact tree_parens hp ht
    · exact tree_parens hp ht
  obtain ⟨k1, ⟨sh, k2, k3, _⟩, _, k5⟩ := key
  rw [k1] at k3
  obtain ⟨u, r, rfl⟩ := Mean.kind_union (r := sh) k3
  refine ⟨b, u, r, hb, k2, ?_⟩
  simpa [CustomRead] using k5

/-- Facets next to a keyword in parentheses, a union, and an array. -/
def exIgnored : List (String × String × YNode) := [
  ("a.raml", "#%RAML 1.0 Library\na", exDoc [
    ("types", exMap [
      ("Plain", exMap [("type", .str "string"), ("minLength", .str "2")]),
      ("Group", exMap [("type", .str "(string)"), ("minLength", .str "2")]),
      ("Union", exMap [("type", .str "string | integer"), ("minLength", .str "2"), ("color", .str "red")]),
      ("Array", exMap [("type", .str "string[]"), ("items", .str "integer")])])])]

/-- These files; the number 2 is known. -/
def exIgnoredEnv : Env := { exFilesEnv exIgnored with decodeUint := fun n => if n.value = "2" then some (some 2) else none }

/-- Parsed, unwrapped and validated. -/
def exIgnoredModel : St := (parseWith exIgnoredEnv {} 20 20 "a.raml" { withUnwrap := true, withValidate := true } {}).2

/-- C70, the property is false of the code: a parse with unwrapping and validation reports no error on these declarations, but the facets are not in force. -/
theorem c70_facets_ignored :
    exResult (parseWith exIgnoredEnv {} 20 20 "a.raml" { withUnwrap := true, withValidate := true } {}) = some (.library 0) ∧
    (exIgnoredModel.libs[0]?).map (·.types) = some [("Plain", 0), ("Group", 1), ("Union", 2), ("Array", 3)] ∧
    Rejects exIgnoredEnv.toExt exIgnoredModel 0 (.str "a") ∧ Accepts exIgnoredEnv.toExt exIgnoredModel 1 (.str "a") ∧ Accepts exIgnoredEnv.toExt exIgnoredModel 2 (.str "a") ∧
    Accepts exIgnoredEnv.toExt exIgnoredModel 3 (.arr [.str "a"]) ∧ Rejects exIgnoredEnv.toExt exIgnoredModel 3 (.arr [.int 1]) :=
  ⟨by decide +kernel, by decide +kernel, ⟨20, "length must be greater than", by decide +kernel⟩, ⟨20, by decide +kernel⟩, ⟨20, by decide +kernel⟩, ⟨20, by decide +kernel⟩,
   ⟨20, "invalid type", by decide +kernel⟩⟩

/-- The hypotheses of the general theorems are met: by `Group` and by `Union`, as parsed. -/
example (s : St) (h : parseFromPath exIgnoredEnv 20 20 "a.raml" {} = (.ok (.library 0), s)) {l : Lib} (hl : l ∈ s.libs) (hp : l.location = "a.raml") :
    (∃ a, OMap.get l.types "Group" = some a ∧ ∀ x, GoValue x → (Valid exIgnoredEnv.toExt s a x ↔ ∃ t, x = .str t)) ∧
    (∃ a b u r, OMap.get l.types "Union" = some a ∧ s.base a = some b ∧ b.shape = some (.union u r) ∧ s.facetMap b.facets = []) := by
  have key := fun k v => (c63_declared exIgnoredEnv 20 20 "a.raml" _ _ h hl (d := exDoc _) (sec := exMap _) ⟨"#%RAML 1.0 Library\na", by rw [hp]; rfl, rfl⟩ rfl k).1 v
  constructor
  · obtain ⟨a, h1, h2⟩ := key "Group" _ rfl
    exact ⟨a, h1, c70_keyword_in_parentheses (t := .group (.prim .string)) h2 ⟨rfl, .str "(string)", rfl, rfl, rfl, by decide, by decide, by decide +kernel⟩ (.more .none) (by decide)⟩
  · obtain ⟨a, h1, h2⟩ := key "Union" _ rfl
    obtain ⟨b, u, r, h3⟩ := c70_union (t := .union (.prim .string) (.prim .integer)) (e := .prim .string) (e' := .prim .integer) h2
      ⟨rfl, .str "string | integer", rfl, rfl, rfl, by decide, by decide, by decide +kernel⟩ (.inl .none)
    exact ⟨a, b, u, r, h1, h3⟩

example : exResult (parseFromPath exIgnoredEnv 20 20 "a.raml" {}) = some (.library 0) := by decide +kernel

end GoRaml.Props
