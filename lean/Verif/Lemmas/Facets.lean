import Verif.Model.Facets
import Verif.Spec.Facets
import Mathlib.Tactic.Common
import Mathlib.Data.List.Induction

/-!
# Lemmas on type inference (C31)
-/

namespace GoRaml

open Spec

/-- Kinds of facets: length bounds, patterns, file types, number, array and object facets, others. -/
inductive Cls where
  | len | pat | file | num | arr | obj | other
  deriving DecidableEq

def cls (f : String) : Cls :=
  if f = "minLength" ∨ f = "maxLength" then .len
  else if f = "pattern" then .pat
  else if f = "minimum" ∨ f = "maximum" ∨ f = "multipleOf" then .num
  else if f = "minItems" ∨ f = "maxItems" ∨ f = "uniqueItems" ∨ f = "items" then .arr
  else if f = "minProperties" ∨ f = "maxProperties" ∨ f = "additionalProperties" ∨ f = "properties" ∨
    f = "discriminator" then .obj
  else if f = "fileTypes" then .file
  else .other

def Cls.type : Cls → Option (String × Bool)
  | .len => some ("string", false)
  | .pat => some ("string", true)
  | .num => some ("number", false)
  | .arr => some ("array", false)
  | .obj => some ("object", false)
  | .file => some ("file", false)
  | .other => none

theorem facetType_cls (f : String) : facetType f = (cls f).type := by
  unfold facetType cls
  repeat' split
  all_goals rfl

/-- The state after facets of the kinds for which the argument is true, if inference has not failed. -/
def code (len pat file num arr obj : Bool) : Option (String × Bool) :=
  let text := len || pat || file
  if pat && file || text && num || text && arr || text && obj || num && arr || num && obj || arr && obj then none
  else if text then some (if file then "file" else "string", pat)
  else if num then some ("number", false)
  else if arr then some ("array", false)
  else if obj then some ("object", false)
  else some ("", false)

def has (c : Cls) (l : List String) : Bool := l.any fun f => decide (cls f = c)

def codeOf (l : List String) : Option (String × Bool) :=
  code (has .len l) (has .pat l) (has .file l) (has .num l) (has .arr l) (has .obj l)

/-- One step, for a facet of kind `c`. -/
def stepCls (st : String × Bool) (c : Cls) : Out (String × Bool) :=
  match c.type with
  | none => .ok st
  | some (ft, only) =>
    let stringOnly := st.2 || only
    let promote := (st.1 = "string" ∧ ft = "file" ∨ st.1 = "file" ∧ ft = "string") ∧ stringOnly = false
    let t := if promote then "file" else st.1
    let ft := if promote then "file" else ft
    if t ≠ "" ∧ ft ≠ t then .err "detected types by facets are not equal" else .ok (ft, stringOnly)

theorem identifyStep_cls (st : String × Bool) (f : String) : identifyStep st f = stepCls st (cls f) := by
  unfold identifyStep stepCls
  rw [facetType_cls]
  rfl

def toOut : Option (String × Bool) → Out (String × Bool)
  | some st => .ok st
  | none => .err "detected types by facets are not equal"

theorem code_step : ∀ (len pat file num arr obj : Bool) (c : Cls),
    (match code len pat file num arr obj with
      | none => Out.err "detected types by facets are not equal"
      | some st => stepCls st c) =
    toOut (code (len || decide (c = .len)) (pat || decide (c = .pat)) (file || decide (c = .file)) (num || decide (c = .num))
      (arr || decide (c = .arr)) (obj || decide (c = .obj))) := by
  intro a b c d e f k
  cases a <;> cases b <;> cases c <;> cases d <;> cases e <;> cases f <;> cases k <;> decide

theorem has_snoc (c : Cls) (l : List String) (f : String) : has c (l ++ [f]) = (has c l || decide (cls f = c)) := by
  simp [has]

theorem codeOf_step (l : List String) (f : String) {st : String × Bool} (h : codeOf l = some st) :
    identifyStep st f = toOut (codeOf (l ++ [f])) := by
  have := code_step (has .len l) (has .pat l) (has .file l) (has .num l) (has .arr l) (has .obj l) (cls f)
  rw [show code (has .len l) (has .pat l) (has .file l) (has .num l) (has .arr l) (has .obj l) = codeOf l from rfl, h] at this
  rw [identifyStep_cls]
  simp only [codeOf, has_snoc]
  exact this

theorem codeOf_none (l l' : List String) (h : codeOf l = none) : codeOf (l ++ l') = none := by
  induction l' using List.reverseRecOn with
  | nil => simpa using h
  | append_singleton l' f ih =>
    rw [← List.append_assoc]
    generalize l ++ l' = m at ih ⊢
    have := code_step (has .len m) (has .pat m) (has .file m) (has .num m) (has .arr m) (has .obj m) (cls f)
    rw [show code (has .len m) (has .pat m) (has .file m) (has .num m) (has .arr m) (has .obj m) = codeOf m from rfl, ih] at this
    simp only [codeOf, has_snoc]
    cases hc : code (has .len m || decide (cls f = .len)) (has .pat m || decide (cls f = .pat)) (has .file m || decide (cls f = .file))
        (has .num m || decide (cls f = .num)) (has .arr m || decide (cls f = .arr)) (has .obj m || decide (cls f = .obj)) with
    | none => rfl
    | some st => rw [hc] at this; simp [toOut] at this

theorem identifyLoop_code (ps : List (YNode × YNode)) (l : List String) {st : String × Bool} (h : codeOf l = some st) :
    identifyLoop (alternate ps) st = toOut (codeOf (l ++ ps.map fun p => p.1.value)) := by
  induction ps generalizing l st with
  | nil => simp [alternate, identifyLoop, h, toOut]
  | cons p ps ih =>
    obtain ⟨k, v⟩ := p
    simp only [alternate, identifyLoop]
    rw [codeOf_step l k.value h]
    cases hc : codeOf (l ++ [k.value]) with
    | none =>
      simp only [toOut, Out.bind, List.map_cons]
      rw [show l ++ k.value :: ps.map (fun p => p.1.value) = (l ++ [k.value]) ++ ps.map (fun p => p.1.value) by simp,
        codeOf_none _ _ hc]
    | some st' =>
      simp only [toOut, Out.bind, List.map_cons]
      rw [show l ++ k.value :: ps.map (fun p => p.1.value) = (l ++ [k.value]) ++ ps.map (fun p => p.1.value) by simp]
      exact ih _ hc

def facetNames : List String :=
  ["minLength", "maxLength", "pattern", "fileTypes", "minimum", "maximum", "multipleOf", "minItems", "maxItems",
    "uniqueItems", "items", "minProperties", "maxProperties", "additionalProperties", "properties", "discriminator"]

theorem cls_names : ∀ f ∈ facetNames, (Specific f ↔ cls f ≠ .other) ∧
    (f ∈ ["minLength", "maxLength", "pattern"] ↔ cls f = .len ∨ cls f = .pat) ∧
    (f ∈ ["minLength", "maxLength", "fileTypes"] ↔ cls f = .len ∨ cls f = .file) ∧
    (f ∈ ["minimum", "maximum", "multipleOf"] ↔ cls f = .num) ∧
    (f ∈ ["minItems", "maxItems", "uniqueItems", "items"] ↔ cls f = .arr) ∧
    (f ∈ ["minProperties", "maxProperties", "additionalProperties", "properties", "discriminator"] ↔ cls f = .obj) := by
  unfold Specific
  decide +kernel

theorem cls_other {f : String} (h : f ∉ facetNames) : cls f = .other ∧ ∀ t ∈ facetsOf, f ∉ t.2 := by
  simp only [facetNames, List.mem_cons, List.not_mem_nil, or_false, not_or] at h
  obtain ⟨h1, h2, h3, h4, h5, h6, h7, h8, h9, h10, h11, h12, h13, h14, h15, h16⟩ := h
  constructor
  · simp only [cls, h1, h2, h3, h4, h5, h6, h7, h8, h9, h10, h11, h12, h13, h14, h15, h16, or_self, if_false]
  · simp [facetsOf, h1, h2, h3, h4, h5, h6, h7, h8, h9, h10, h11, h12, h13, h14, h15, h16]

theorem specific_cls (f : String) : Specific f ↔ cls f ≠ .other := by
  by_cases h : f ∈ facetNames
  · exact (cls_names f h).1
  · obtain ⟨h1, h2⟩ := cls_other h
    exact ⟨fun ⟨t, ht, hf⟩ => absurd hf (h2 t ht), fun hc => absurd h1 hc⟩

theorem mem_cls (f : String) :
    (f ∈ ["minLength", "maxLength", "pattern"] ↔ cls f = .len ∨ cls f = .pat) ∧
    (f ∈ ["minLength", "maxLength", "fileTypes"] ↔ cls f = .len ∨ cls f = .file) ∧
    (f ∈ ["minimum", "maximum", "multipleOf"] ↔ cls f = .num) ∧
    (f ∈ ["minItems", "maxItems", "uniqueItems", "items"] ↔ cls f = .arr) ∧
    (f ∈ ["minProperties", "maxProperties", "additionalProperties", "properties", "discriminator"] ↔ cls f = .obj) := by
  by_cases h : f ∈ facetNames
  · exact (cls_names f h).2
  · obtain ⟨h1, h2⟩ := cls_other h
    rw [h1]
    simp only [facetsOf, List.mem_cons, List.not_mem_nil, or_false, forall_eq_or_imp, forall_eq, not_or] at h2
    obtain ⟨h2, h3, h4, h5, h6⟩ := h2
    simp [h2, h3, h4, h5, h6]

theorem has_true {c : Cls} {l : List String} : has c l = true ↔ ∃ f ∈ l, cls f = c := by simp [has]

/-- Fitting, in terms of the kinds of facets that occur. -/
theorem fits_cls {own l : List String} {cs : List Cls} (hm : ∀ f, f ∈ own ↔ cls f ∈ cs) :
    Fits own l ↔ ∀ c, c ≠ .other → c ∉ cs → has c l = false := by
  constructor
  · intro h c hc hcs
    cases hh : has c l with
    | false => rfl
    | true =>
      obtain ⟨f, hf, rfl⟩ := has_true.1 hh
      exact absurd ((hm f).1 (h f hf ((specific_cls f).2 hc))) hcs
  · intro h f hf hs
    by_contra hcon
    have := h (cls f) ((specific_cls f).1 hs) (fun hc => hcon ((hm f).2 hc))
    rw [has_true.2 ⟨f, hf, rfl⟩] at this
    cases this

theorem fits_all (l : List String) :
    (Fits ["minLength", "maxLength", "pattern"] l ↔ has .file l = false ∧ has .num l = false ∧ has .arr l = false ∧ has .obj l = false) ∧
    (Fits ["minLength", "maxLength", "fileTypes"] l ↔ has .pat l = false ∧ has .num l = false ∧ has .arr l = false ∧ has .obj l = false) ∧
    (Fits ["minimum", "maximum", "multipleOf"] l ↔ has .len l = false ∧ has .pat l = false ∧ has .file l = false ∧ has .arr l = false ∧ has .obj l = false) ∧
    (Fits ["minItems", "maxItems", "uniqueItems", "items"] l ↔ has .len l = false ∧ has .pat l = false ∧ has .file l = false ∧ has .num l = false ∧ has .obj l = false) ∧
    (Fits ["minProperties", "maxProperties", "additionalProperties", "properties", "discriminator"] l ↔
      has .len l = false ∧ has .pat l = false ∧ has .file l = false ∧ has .num l = false ∧ has .arr l = false) := by
  have key : ∀ (cs : List Cls) (P : Prop), ((∀ c, c ≠ .other → c ∉ cs → has c l = false) ↔
      ((Cls.len ∉ cs → has .len l = false) ∧ (Cls.pat ∉ cs → has .pat l = false) ∧ (Cls.file ∉ cs → has .file l = false) ∧
       (Cls.num ∉ cs → has .num l = false) ∧ (Cls.arr ∉ cs → has .arr l = false) ∧ (Cls.obj ∉ cs → has .obj l = false))) := by
    intro cs _
    constructor
    · intro h
      exact ⟨h _ (by decide), h _ (by decide), h _ (by decide), h _ (by decide), h _ (by decide), h _ (by decide)⟩
    · rintro ⟨h1, h2, h3, h4, h5, h6⟩ c hc hcs
      cases c <;> first | exact absurd rfl hc | simp_all
  refine ⟨?_, ?_, ?_, ?_, ?_⟩
  · rw [fits_cls (cs := [.len, .pat]) (fun f => by rw [(mem_cls f).1]; simp), key _ True]; simp
  · rw [fits_cls (cs := [.len, .file]) (fun f => by rw [(mem_cls f).2.1]; simp), key _ True]; simp
  · rw [fits_cls (cs := [.num]) (fun f => by rw [(mem_cls f).2.2.1]; simp), key _ True]; simp
  · rw [fits_cls (cs := [.arr]) (fun f => by rw [(mem_cls f).2.2.2.1]; simp), key _ True]; simp
  · rw [fits_cls (cs := [.obj]) (fun f => by rw [(mem_cls f).2.2.2.2]; simp), key _ True]; simp

theorem infers_cons {t : String} {own : List String} {rest : List (String × List String)} {l : List String} {r : String} :
    Infers ((t, own) :: rest) l r ↔ (Fits own l ∧ r = t) ∨ (¬ Fits own l ∧ Infers rest l r) := by
  constructor
  · intro h
    cases h with
    | here h => exact Or.inl ⟨h, rfl⟩
    | later h1 h2 => exact Or.inr ⟨h1, h2⟩
  · rintro (⟨h, rfl⟩ | ⟨h1, h2⟩)
    · exact .here h
    · exact .later h1 h2

theorem infers_nil {l : List String} {r : String} : ¬ Infers [] l r := by rintro ⟨⟩

theorem infers_code (l : List String) (r : String) :
    Infers facetsOf l r ↔ ∃ st, codeOf l = some st ∧ r = if st.1 = "" then "string" else st.1 := by
  obtain ⟨f1, f2, f3, f4, f5⟩ := fits_all l
  simp only [facetsOf, infers_cons, infers_nil, f1, f2, f3, f4, f5, codeOf]
  generalize has .len l = a, has .pat l = b, has .file l = c, has .num l = d, has .arr l = e, has .obj l = f
  cases a <;> cases b <;> cases c <;> cases d <;> cases e <;> cases f <;> simp [code]

theorem identify_infers (ps : List (YNode × YNode)) :
    (∀ t, identifyShapeType (alternate ps) = .ok t ↔ Infers facetsOf (ps.map fun p => p.1.value) t) ∧
    ((∃ e, identifyShapeType (alternate ps) = .err e) ↔ ∀ t, ¬ Infers facetsOf (ps.map fun p => p.1.value) t) := by
  have h0 : codeOf [] = some ("", false) := by decide
  have hl := identifyLoop_code ps [] h0
  rw [List.nil_append] at hl
  unfold identifyShapeType
  rw [hl]
  constructor
  · intro t
    rw [infers_code]
    cases codeOf (ps.map fun p => p.1.value) with
    | none => simp [toOut, Out.bind]
    | some st =>
      simp only [toOut, Out.bind, Out.ok.injEq, Option.some.injEq, exists_eq_left']
      exact eq_comm
  · simp only [infers_code]
    cases codeOf (ps.map fun p => p.1.value) <;> simp [toOut, Out.bind]

end GoRaml
