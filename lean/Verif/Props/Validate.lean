import Verif.Lemmas.Terminate
import Verif.Lemmas.MapOrder

/-!
# Properties C01 - C11: validation

`Accepts E h a v`: `Validate(v)` on the base shape at `a` returns nil.  `Rejects E h a v`: it returns an error.
The right-hand sides come from `Verif.Spec.Valid`.
-/

namespace GoRaml.Props

open GoRaml Spec

/-- Some concrete external functions, for the examples. -/
def exE : Ext where
  reMatch p s := p == s
  reCompiles _ := true
  timeParse layout s := layout == s
  hash v := match v with | .int i => some i.toNat | .str s => some (s.length + 1000) | _ => none
  truncOverflow _ := 0
  roundF64 n := .fin n
  jsonDecode _ := none

/-- A heap holding the given shapes, one per base. -/
def heapOf (l : List Shape) : St := { bases := l.map fun s => { shape := some s } }

/-! ## C01 -/

/-- C01: for Go ints, uints and floats that fit int64, integer validation is exactly the range-and-enum condition,
and every other kind of value is rejected. -/
theorem c01_integer_validate (E : Ext) (h : St) (a : Addr) (f : IntegerF)
    (hs : h.shapeAt a = some (.integer f)) (v : GoVal) (hr : InRange v) :
    (Accepts E h a v ↔ IntegerOK f v) ∧ (Rejects E h a v ↔ ¬ IntegerOK f v) := by
  exact leaf_decides E h a (.integer f) hs v (fun rec => integer_decides_spec E f v hr)

/-- C01: values that are not int, uint or float64 are rejected by every integer type. -/
theorem c01_other_kinds_rejected (E : Ext) (h : St) (a : Addr) (f : IntegerF)
    (hs : h.shapeAt a = some (.integer f)) (v : GoVal) (h1 : ∀ z, v ≠ .int z) (h2 : ∀ n, v ≠ .uint n)
    (h3 : ∀ x, v ≠ .float x) : Rejects E h a v := by
  have hr : InRange v := by cases v <;> simp_all [InRange]
  refine ((c01_integer_validate E h a f hs v hr).2).2 ?_
  rintro ⟨i, hi, _⟩
  cases hi <;> simp_all

/-- C01: a float that does not fit int64 is judged as the int64 Go's conversion yields. -/
theorem c01_float_overflow (E : Ext) (h : St) (a : Addr) (f : IntegerF)
    (hs : h.shapeAt a = some (.integer f)) (x : F64) (hr : ¬ InRange (.float x)) :
    (Accepts E h a (.float x) ↔ IntegerOK f (.int (E.truncOverflow x).toInt)) ∧
    (Rejects E h a (.float x) ↔ ¬ IntegerOK f (.int (E.truncOverflow x).toInt)) := by
  refine leaf_decides E h a (.integer f) hs _ (fun rec => ?_)
  simp only [validateShape]
  rw [integer_overflow E f x hr]
  exact integer_decides_spec E f _ (by exact bitvec_range _)

/-- The hypotheses are met, and both verdicts occur. -/
example : Accepts exE (heapOf [.integer { minimum := some (-3), maximum := some 9, enum := some [.int 7] }]) 0 (.int 7) ∧
    Rejects exE (heapOf [.integer { minimum := some (-3), maximum := some 9 }]) 0 (.int 10) ∧
    InRange (.float (.fin (3 / 2))) ∧
    Accepts exE (heapOf [.integer { enum := some [.int 1] }]) 0 (.float (.fin (3 / 2))) := by
  refine ⟨⟨1, by decide +kernel⟩, ⟨1, "value must be less than", by decide +kernel⟩, ?_, ⟨1, by decide +kernel⟩⟩
  constructor <;> norm_num

/-! ## C02 -/

/-- C02: number validation is exactly the range-and-enum condition on float64. -/
theorem c02_number_validate (E : Ext) (h : St) (a : Addr) (f : NumberF)
    (hs : h.shapeAt a = some (.number f)) (v : GoVal) :
    (Accepts E h a v ↔ NumberOK E.toF64 f v) ∧ (Rejects E h a v ↔ ¬ NumberOK E.toF64 f v) :=
  leaf_decides E h a (.number f) hs v (fun _ => number_decides E f v)

/-- C02, corollary: an enum with no float64 value (e.g. integer literals) makes a number type reject everything. -/
theorem c02_integer_enum_never_matches (E : Ext) (h : St) (a : Addr) (f : NumberF)
    (hs : h.shapeAt a = some (.number f)) (es : List GoVal) (he : f.enum = some es)
    (hint : ∀ e ∈ es, ∃ z, e = .int z) (v : GoVal) : Rejects E h a v := by
  refine ((c02_number_validate E h a f hs v).2).2 ?_
  rintro ⟨x, _, _, h3⟩
  obtain ⟨_, h4⟩ := h3 es he
  obtain ⟨z, hz⟩ := hint _ h4
  simp at hz

example : Accepts exE (heapOf [.number { minimum := some (.fin 1), enum := some [.float (.fin 2)] }]) 0 (.int 2) ∧
    Rejects exE (heapOf [.number { enum := some [.int 2] }]) 0 (.int 2) ∧
    Accepts exE (heapOf [.number { minimum := some (.fin 1), maximum := some (.fin 2) }]) 0 (.float .nan) := by
  refine ⟨⟨1, by decide +kernel⟩, ⟨1, "value must be one of", by decide +kernel⟩, ⟨1, by decide +kernel⟩⟩

/-! ## C03 -/

/-- C03: string validation is exactly byte length, pattern and enum. -/
theorem c03_string_validate (E : Ext) (h : St) (a : Addr) (f : StringF)
    (hs : h.shapeAt a = some (.string f)) (v : GoVal) :
    (Accepts E h a v ↔ StringOK E.reMatch f v) ∧ (Rejects E h a v ↔ ¬ StringOK E.reMatch f v) :=
  leaf_decides E h a (.string f) hs v (fun _ => string_decides E f v)

/-- C03: file validation is exactly byte length. -/
theorem c03_file_validate (E : Ext) (h : St) (a : Addr) (f : FileF)
    (hs : h.shapeAt a = some (.file f)) (v : GoVal) :
    (Accepts E h a v ↔ FileOK f v) ∧ (Rejects E h a v ↔ ¬ FileOK f v) :=
  leaf_decides E h a (.file f) hs v (fun _ => file_decides f v)

/-- A two-byte letter counts twice. -/
example : Accepts exE (heapOf [.string { minLength := some 2, maxLength := some 2 }]) 0 (.str "é") ∧
    Rejects exE (heapOf [.string { pattern := some "ab" }]) 0 (.str "ac") ∧
    Accepts exE (heapOf [.file { fileTypes := some [.str "image/png"] }]) 0 (.str "zz") := by
  refine ⟨⟨1, by decide +kernel⟩, ⟨1, "must match pattern", by decide +kernel⟩, ⟨1, by decide +kernel⟩⟩

/-! ## C04 -/

/-- C04: boolean types. -/
theorem c04_boolean_validate (E : Ext) (h : St) (a : Addr) (enum : Option (List GoVal))
    (hs : h.shapeAt a = some (.boolean enum)) (v : GoVal) :
    (Accepts E h a v ↔ BooleanOK enum v) ∧ (Rejects E h a v ↔ ¬ BooleanOK enum v) :=
  leaf_decides E h a (.boolean enum) hs v (fun _ => boolean_decides enum v)

/-- C04: nil accepts exactly nil. -/
theorem c04_nil_validate (E : Ext) (h : St) (a : Addr) (hs : h.shapeAt a = some .nil) (v : GoVal) :
    (Accepts E h a v ↔ v = .nil) ∧ (Rejects E h a v ↔ v ≠ .nil) :=
  leaf_decides E h a .nil hs v (fun _ => nil_decides v)

/-- C04: any accepts every value. -/
theorem c04_any_validate (E : Ext) (h : St) (a : Addr) (hs : h.shapeAt a = some .any) (v : GoVal) :
    Accepts E h a v ∧ ¬ Rejects E h a v := by
  have := leaf_decides E h a .any hs v (P := True) (fun _ => decides_ok)
  simpa using this

/-- C04: the date/time types accept exactly the strings the time parser accepts for their layout. -/
theorem c04_time_validate (E : Ext) (h : St) (a : Addr) (s : Shape) (layout : String)
    (hs : h.shapeAt a = some s)
    (hl : (s = .datetimeOnly ∧ layout = "2006-01-02T15:04:05") ∨ (s = .dateOnly ∧ layout = "2006-01-02") ∨
      (s = .timeOnly ∧ layout = "15:04:05")) (v : GoVal) :
    (Accepts E h a v ↔ TimeOK E.timeParse layout v) ∧ (Rejects E h a v ↔ ¬ TimeOK E.timeParse layout v) := by
  rcases hl with ⟨rfl, rfl⟩ | ⟨rfl, rfl⟩ | ⟨rfl, rfl⟩ <;>
    exact leaf_decides E h a _ hs v (fun _ => time_decides E _ v)

/-- C04: datetime types. -/
theorem c04_datetime_validate (E : Ext) (h : St) (a : Addr) (fmt : Option String)
    (hs : h.shapeAt a = some (.datetime fmt)) (v : GoVal) :
    (Accepts E h a v ↔ DateTimeOK E.timeParse fmt v) ∧
    (Rejects E h a v ↔ ¬ DateTimeOK E.timeParse fmt v) :=
  leaf_decides E h a (.datetime fmt) hs v (fun _ => dateTime_decides E fmt v)

example : Accepts exE (heapOf [.boolean (some [.bool true])]) 0 (.bool true) ∧
    Rejects exE (heapOf [.boolean (some [.bool true])]) 0 (.bool false) ∧
    Accepts exE (heapOf [.datetime (some "rfc2616")]) 0 (.str "Mon, 02 Jan 2006 15:04:05 GMT") ∧
    Rejects exE (heapOf [.dateOnly]) 0 (.str "x") ∧ Rejects exE (heapOf [.nil]) 0 (.bool false) := by
  refine ⟨⟨1, by decide +kernel⟩, ⟨1, "value must be one of", by decide +kernel⟩, ⟨1, by decide +kernel⟩,
    ⟨1, "value must match format", by decide +kernel⟩, ⟨1, "invalid type", by decide +kernel⟩⟩

/-! ## C05, C06 -/

/-- C05: an array type without uniqueItems accepts exactly the arrays with an allowed length whose elements are all
accepted by the items type.  Holds on every heap, cyclic or not. -/
theorem c05_array_validate (E : Ext) (h : St) (a : Addr) (f : ArrayF) (hs : h.shapeAt a = some (.array f))
    (hu : f.uniqueItems ≠ some true) (v : GoVal) :
    Accepts E h a v ↔ ∃ l, v = .arr l ∧ (∀ n, f.minItems = some n → n ≤ l.length) ∧
      (∀ n, f.maxItems = some n → l.length ≤ n) ∧
      (∀ b, f.items = some b → ∀ x ∈ l, Accepts E h b x) := by
  rw [array_accepts E h a f hs v]
  constructor
  · rintro ⟨l, h1, h2, h3, _⟩; exact ⟨l, h1, h2.1, h2.2, h3⟩
  · rintro ⟨l, h1, h2, h3, h4⟩; exact ⟨l, h1, ⟨h2, h3⟩, h4, fun h => absurd h hu⟩

/-- C05: on closed, guarded heaps everything else gets an error. -/
theorem c05_array_reject (E : Ext) (h : St) (hc : Closed h) (hg : Guarded h) (a : Addr) (f : ArrayF)
    (hs : h.shapeAt a = some (.array f)) (hu : f.uniqueItems ≠ some true) (v : GoVal) (hv : GoValue v) :
    Rejects E h a v ↔ ¬ ∃ l, v = .arr l ∧ (∀ n, f.minItems = some n → n ≤ l.length) ∧
      (∀ n, f.maxItems = some n → l.length ≤ n) ∧
      (∀ b, f.items = some b → ∀ x ∈ l, Accepts E h b x) := by
  rw [← c05_array_validate E h a f hs hu v]
  exact rejects_iff_not_accepts E hc hg (addr_of_shape hs) hv

/-- C06: with uniqueItems, two positions whose elements have the same hash (in particular the same JSON encoding,
since the hash is a function of it) are never accepted. -/
theorem c06_duplicate_never_accepted (E : Ext) (h : St) (a : Addr) (f : ArrayF)
    (hs : h.shapeAt a = some (.array f)) (hu : f.uniqueItems = some true) (l : List GoVal)
    (i j : Nat) (hi : i < l.length) (hj : j < l.length) (hij : i ≠ j)
    (hdup : E.hash l[i] = E.hash l[j]) : ¬ Accepts E h a (.arr l) := by
  rw [array_accepts E h a f hs]
  rintro ⟨l', h1, _, _, h4⟩
  cases h1
  obtain ⟨ks, h5, h6⟩ := h4 hu
  have hlen : ks.length = l.length := by
    have := congrArg List.length h5
    simpa using this.symm
  have hget : ∀ (n : Nat) (hn : n < l.length), E.hash l[n] = some (ks[n]'(by omega)) := by
    intro n hn
    have := congrArg (fun t : List (Option Nat) => t[n]?) h5
    simpa [hn, hlen] using this
  rw [hget i hi, hget j hj] at hdup
  simp only [Option.some.injEq] at hdup
  exact hij ((List.Nodup.getElem_inj_iff h6).1 hdup)

/-- C06: an array whose elements hash to pairwise different values is accepted when the other constraints hold. -/
theorem c06_distinct_accepted (E : Ext) (h : St) (a : Addr) (f : ArrayF)
    (hs : h.shapeAt a = some (.array f)) (l : List GoVal)
    (hmin : ∀ n, f.minItems = some n → n ≤ l.length) (hmax : ∀ n, f.maxItems = some n → l.length ≤ n)
    (hitems : ∀ b, f.items = some b → ∀ x ∈ l, Accepts E h b x)
    (hs' : ∀ x ∈ l, (E.hash x).isSome) (hd : (l.map E.hash).Nodup) : Accepts E h a (.arr l) := by
  rw [array_accepts E h a f hs]
  refine ⟨l, rfl, ⟨hmin, hmax⟩, hitems, fun _ => ?_⟩
  have : ∀ l : List GoVal, (∀ x ∈ l, (E.hash x).isSome) → ∃ ks : List Nat, l.map E.hash = ks.map some := by
    intro l
    induction l with
    | nil => intro _; exact ⟨[], rfl⟩
    | cons x xs ih =>
      intro hx
      obtain ⟨ks, hks⟩ := ih (fun y hy => hx y (List.mem_cons_of_mem _ hy))
      obtain ⟨k, hk⟩ := Option.isSome_iff_exists.1 (hx x (by simp))
      exact ⟨k :: ks, by simp [hk, hks]⟩
  obtain ⟨ks, hks⟩ := this l hs'
  refine ⟨ks, hks, ?_⟩
  rw [hks] at hd
  exact List.Nodup.of_map _ hd

/-- C06: with uniqueItems, on closed, guarded heaps: exactly the arrays within the bounds whose items are accepted, can be encoded and have pairwise different hashes
are accepted, and everything else gets an error. -/
theorem c06_unique_items (E : Ext) (h : St) (hc : Closed h) (hg : Guarded h) (a : Addr) (f : ArrayF)
    (hs : h.shapeAt a = some (.array f)) (hu : f.uniqueItems = some true) (v : GoVal) (hv : GoValue v) :
    let fits := ∃ l, v = .arr l ∧ (∀ n, f.minItems = some n → n ≤ l.length) ∧ (∀ n, f.maxItems = some n → l.length ≤ n) ∧
      (∀ b, f.items = some b → ∀ x ∈ l, Accepts E h b x) ∧ (∀ x ∈ l, (E.hash x).isSome) ∧ (l.map E.hash).Nodup
    (Accepts E h a v ↔ fits) ∧ (Rejects E h a v ↔ ¬ fits) := by
  intro fits
  have key : Accepts E h a v ↔ fits := by
    constructor
    · intro ha
      obtain ⟨l, rfl, h2, h3, h4⟩ := (array_accepts E h a f hs v).1 ha
      obtain ⟨ks, h5, h6⟩ := h4 hu
      refine ⟨l, rfl, h2.1, h2.2, h3, fun x hx => ?_, ?_⟩
      · have : E.hash x ∈ l.map E.hash := List.mem_map.2 ⟨x, hx, rfl⟩
        rw [h5] at this
        obtain ⟨k, _, hk⟩ := List.mem_map.1 this
        rw [← hk]; rfl
      · rw [h5]
        exact h6.map (fun _ _ h => Option.some.inj h)
    · rintro ⟨l, rfl, h1, h2, h3, h4, h5⟩
      exact c06_distinct_accepted E h a f hs l h1 h2 h3 h4 h5
  exact ⟨key, by rw [rejects_iff_not_accepts E hc hg (addr_of_shape hs) hv, key]⟩

example : Accepts exE (heapOf [.array { items := some 1, minItems := some 2, uniqueItems := some true }, .integer {}]) 0
      (.arr [.int 1, .int 2]) ∧
    Rejects exE (heapOf [.array { items := some 1, uniqueItems := some true }, .integer {}]) 0
      (.arr [.int 1, .int 2, .int 1]) ∧
    Accepts exE (heapOf [.array { items := some 0 }]) 0 (.arr [.arr [], .arr [.arr []]]) := by
  refine ⟨⟨2, by decide +kernel⟩, ⟨2, "array contains duplicate items", by decide +kernel⟩, ⟨5, by decide +kernel⟩⟩

/-! ## C07, C08 -/

/-- C07: on closed, guarded heaps an object type accepts exactly the maps described by the specification
`ObjectOK`, with "accepted" for the component types. -/
theorem c07_object_validate (E : Ext) (h : St) (hc : Closed h) (hg : Guarded h) (a : Addr) (f : ObjectF)
    (hs : h.shapeAt a = some (.object f)) (v : GoVal) (hv : GoValue v) :
    (Accepts E h a v ↔ ObjectOK E.reMatch (Accepts E h) h f v) ∧
    (Rejects E h a v ↔ ¬ ObjectOK E.reMatch (Accepts E h) h f v) := by
  have h1 : Accepts E h a v ↔ ObjectOK E.reMatch (Accepts E h) h f v := by
    have := accepts_iff_step E hc hg (addr_of_shape hs) hv
    rw [this]; unfold Step; rw [hs]
  exact ⟨h1, by rw [rejects_iff_not_accepts E hc hg (addr_of_shape hs) hv, h1]⟩

/-- C07, soundness on every heap, whatever the references: acceptance implies the specification, an error refutes it. -/
theorem c07_object_sound (E : Ext) (h : St) (a : Addr) (f : ObjectF)
    (hs : h.shapeAt a = some (.object f)) (v : GoVal) :
    (Accepts E h a v → ObjectOK E.reMatch (Accepts E h) h f v) ∧
    (Rejects E h a v → ¬ ObjectOK E.reMatch (Accepts E h) h f v) := by
  have key : ∀ n, Sound (validateShape E (validate E h n) h (.object f) v)
      (ObjectOK E.reMatch (Accepts E h) h f v) := fun n =>
    object_sound E (validate E h n) (Accepts E h) h f v
      (fun m _ kv _ => ⟨fun p _ => sound_accepts E h n _ _, fun p _ => sound_accepts E h n _ _⟩)
  constructor
  · rintro ⟨n, hn⟩
    cases n with
    | zero => simp [validate] at hn
    | succ n => simp only [validate, hs] at hn; exact (key n).1 hn
  · rintro ⟨n, m, hn⟩
    cases n with
    | zero => simp [validate] at hn
    | succ n => simp only [validate, hs] at hn; exact (key n).2 m hn

/-- C08: a key without a declaration, in an object that is not closed and constrains nothing else, is accepted iff
no pattern matches it or some matching pattern's type accepts the value. -/
theorem c08_pattern_rule (E : Ext) (h : St) (hc : Closed h) (hg : Guarded h) (a : Addr) (pps : Option Nat)
    (hs : h.shapeAt a = some (.object { patternProperties := pps })) (k : String) (x : GoVal)
    (hx : GoValue x) :
    Accepts E h a (.map [(k, x)]) ↔
      (∀ p ∈ h.patProps pps, E.reMatch p.2.pattern k = false) ∨
      (∃ p ∈ h.patProps pps, E.reMatch p.2.pattern k = true ∧ Accepts E h p.2.base x) := by
  rw [(c07_object_validate E h hc hg a _ hs (.map [(k, x)]) (.map _ (by simpa using hx))).1]
  constructor
  · rintro ⟨m, hm, _, _, _, h5⟩
    cases hm
    exact (h5 k x (by simp) (by simp [St.props])).2
  · intro hr
    refine ⟨_, rfl, by simp [Between], by simp [St.props], ?_, ?_⟩
    · intro k' x' p _ hp
      obtain ⟨pre, post, h1, _⟩ := hp
      simp [St.props] at h1
    · intro k' x' hk _
      simp at hk
      obtain ⟨rfl, rfl⟩ := hk
      exact ⟨by simp, hr⟩

/-- C07: a value whose keys are all declared is unaffected by pattern properties (declarations have priority). -/
theorem c07_declared_priority (E : Ext) (h : St) (hc : Closed h) (hg : Guarded h) (a : Addr) (f : ObjectF)
    (hs : h.shapeAt a = some (.object f)) (m : List (String × GoVal)) (hv : GoValue (.map m))
    (hdecl : ∀ kv ∈ m, ∃ p ∈ h.props f.properties, p.1 = kv.1)
    (hmin : ∀ n, f.minProperties = some n → n ≤ m.length) (hmax : ∀ n, f.maxProperties = some n → m.length ≤ n)
    (hreq : ∀ p ∈ h.props f.properties, p.2.required = true → ∃ x, (p.1, x) ∈ m) :
    Accepts E h a (.map m) ↔
      ∀ k x p, (k, x) ∈ m → Declares (h.props f.properties) k p → Accepts E h p.base x := by
  rw [(c07_object_validate E h hc hg a f hs _ hv).1]
  constructor
  · rintro ⟨m', hm, _, _, h4, _⟩
    cases hm; exact h4
  · intro h4
    refine ⟨m, rfl, ⟨hmin, hmax⟩, hreq, h4, ?_⟩
    intro k x hk hq
    obtain ⟨p, hp, he⟩ := hdecl _ hk
    exact absurd he (hq p hp)

/-- A recursive object type with a pattern property: `A: {next?: A, /x/: string}`. -/
def exObj : St :=
  { bases := [{ shape := some (.object { properties := some 0, patternProperties := some 0, minProperties := some 1 }) },
      { shape := some (.string {}) }, { shape := some (.recursive 0) }]
    pmaps := [[("next", ⟨"next", 2, false⟩), ("id", ⟨"id", 1, true⟩)]]
    ppmaps := [[("/x/", ⟨"x", 1⟩)]] }

theorem exObj_closed : Closed exObj := by
  intro a b hb
  simp only [St.base, exObj] at hb
  rcases a with _ | _ | _ | a <;> simp at hb <;> subst hb <;> simp [St.props, St.patProps, exObj]
  rintro k p (⟨rfl, rfl⟩ | ⟨rfl, rfl⟩) <;> simp

theorem exObj_guarded : Guarded exObj := by
  refine ⟨fun a => if a = 2 then 1 else 0, fun a => ?_⟩
  rcases a with _ | _ | _ | a <;> simp [St.shapeAt, St.base, exObj]

example : Accepts exE exObj 0 (.map [("id", .str "a"), ("next", .map [("id", .str "b")])]) ∧
    Rejects exE exObj 0 (.map [("id", .str "a"), ("next", .map [("idd", .str "b")])]) ∧
    Rejects exE exObj 0 (.map [("id", .str "a"), ("x", .int 1)]) ∧
    Accepts exE exObj 0 (.map [("id", .str "a"), ("y", .int 1)]) ∧ Closed exObj ∧ Guarded exObj ∧
    GoValue (.map [("id", .str "a"), ("next", .map [("id", .str "b")])]) := by
  refine ⟨⟨4, by decide +kernel⟩, ⟨4, "missing required properties", by decide +kernel⟩,
    ⟨4, "validate pattern property", by decide +kernel⟩, ⟨4, by decide +kernel⟩, exObj_closed, exObj_guarded, ?_⟩
  refine .map _ ?_
  simp
  exact ⟨.str _, .map _ (by simp; exact .str _)⟩

/-! ## C09 -/

/-- C09: acceptance does not depend on the order in which map entries are visited, at any depth.  `hlaw` says that the
JSON encoding behind the uniqueItems hash does not depend on it either (encoding/json sorts keys). -/
theorem c09_map_order (E : Ext) (hlaw : ∀ v w, SameUpToMapOrder v w → E.hash v = E.hash w)
    (h : St) (hc : Closed h) (hg : Guarded h) (a : Addr) (ha : a < h.bases.length) (v w : GoVal)
    (hv : GoValue v) (hvw : SameUpToMapOrder v w) :
    (Accepts E h a v ↔ Accepts E h a w) ∧ (Rejects E h a v ↔ Rejects E h a w) := by
  have hw := hvw.goValue hv
  have hV := valid_mapOrder E hlaw h a hvw
  have h1 := accepts_iff_valid E hc hg ha hv
  have h2 := accepts_iff_valid E hc hg ha hw
  exact ⟨by rw [h1.1, h2.1, hV], by rw [h1.2, h2.2, hV]⟩

/-- A hash that obeys the law and two different orders of a nested map. -/
example : (∀ v w, SameUpToMapOrder v w → (fun _ : GoVal => (some 0 : Option Nat)) v = (fun _ => some 0) w) ∧
    SameUpToMapOrder (.arr [.map [("a", .int 1), ("b", .map [("c", .nil), ("d", .nil)])]])
      (.arr [.map [("b", .map [("d", .nil), ("c", .nil)]), ("a", .int 1)]]) := by
  refine ⟨fun _ _ _ => rfl, ?_⟩
  refine .trans (.inArr [] [] (.inMap "b" [("a", .int 1)] [] (.perm (.swap ("d", GoVal.nil) ("c", GoVal.nil) []))))
    (.inArr [] [] (.perm (.swap _ _ _)))

/-! ## C10 -/

/-- C10: a union accepts exactly the values some member accepts; its own enum is not consulted. -/
theorem c10_union_validate (E : Ext) (h : St) (hc : Closed h) (hg : Guarded h) (a : Addr)
    (anyOf : Option Nat) (enum : Option (List GoVal)) (hs : h.shapeAt a = some (.union anyOf enum))
    (v : GoVal) (hv : GoValue v) :
    (Accepts E h a v ↔ ∃ m ∈ h.slice anyOf, Accepts E h m v) ∧
    (Rejects E h a v ↔ ∀ m ∈ h.slice anyOf, Rejects E h m v) := by
  have h1 : Accepts E h a v ↔ ∃ m ∈ h.slice anyOf, Accepts E h m v := by
    have := accepts_iff_step E hc hg (addr_of_shape hs) hv
    rw [this]; unfold Step; rw [hs]
  refine ⟨h1, ?_⟩
  rw [rejects_iff_not_accepts E hc hg (addr_of_shape hs) hv, h1]
  constructor
  · intro hn m hm
    rw [rejects_iff_not_accepts E hc hg (hc.sub hs (Sub.member (v := v) (e := enum) hm)) hv]
    exact fun hA => hn ⟨m, hm, hA⟩
  · rintro hall ⟨m, hm, hA⟩
    have := hall m hm
    rw [rejects_iff_not_accepts E hc hg (hc.sub hs (Sub.member (v := v) (e := enum) hm)) hv] at this
    exact this hA

/-- C10: the order and repetition of members and the enum do not matter. -/
theorem c10_union_order (E : Ext) (h : St) (hc : Closed h) (hg : Guarded h) (a b : Addr)
    (m1 m2 : Option Nat) (e1 e2 : Option (List GoVal)) (hs1 : h.shapeAt a = some (.union m1 e1))
    (hs2 : h.shapeAt b = some (.union m2 e2)) (hm : ∀ m, m ∈ h.slice m1 ↔ m ∈ h.slice m2)
    (v : GoVal) (hv : GoValue v) : Accepts E h a v ↔ Accepts E h b v := by
  rw [(c10_union_validate E h hc hg a m1 e1 hs1 v hv).1, (c10_union_validate E h hc hg b m2 e2 hs2 v hv).1]
  simp [hm]

/-- `string | integer` and `integer | string`. -/
def exUnion : St :=
  { bases := [{ shape := some (.union (some 0) none) }, { shape := some (.union (some 1) (some [])) },
      { shape := some (.string {}) }, { shape := some (.integer {}) }]
    slices := [[2, 3], [3, 2]] }

example : Closed exUnion ∧ Guarded exUnion ∧ Accepts exE exUnion 0 (.int 3) ∧ Accepts exE exUnion 1 (.int 3) ∧
    Rejects exE exUnion 0 (.bool true) := by
  refine ⟨?_, ⟨fun a => if a < 2 then 1 else 0, fun a => ?_⟩, ⟨2, by decide +kernel⟩, ⟨2, by decide +kernel⟩,
    ⟨2, "value does not match any type", by decide +kernel⟩⟩
  · intro a b hb
    simp only [St.base, exUnion] at hb
    rcases a with _ | _ | _ | _ | a <;> simp at hb <;> subst hb <;> simp [St.slice, exUnion]
  · rcases a with _ | _ | _ | _ | a <;> simp [St.shapeAt, St.base, exUnion, St.slice]

/-! ## C11 -/

/-- C11: a recursive reference accepts and rejects exactly what its head does. -/
theorem c11_recursive_as_head (E : Ext) (h : St) (a hd : Addr) (hs : h.shapeAt a = some (.recursive hd))
    (v : GoVal) : (Accepts E h a v ↔ Accepts E h hd v) ∧ (Rejects E h a v ↔ Rejects E h hd v) := by
  have hstep : ∀ n, validate E h (n + 1) a v = validate E h n hd v := by
    intro n; simp only [validate, hs, validateShape]
  constructor
  · constructor
    · rintro ⟨n, hn⟩
      cases n with
      | zero => simp [validate] at hn
      | succ n => exact ⟨n, by rw [← hstep]; exact hn⟩
    · rintro ⟨n, hn⟩; exact ⟨n + 1, by rw [hstep]; exact hn⟩
  · constructor
    · rintro ⟨n, m, hn⟩
      cases n with
      | zero => simp [validate] at hn
      | succ n => exact ⟨n, m, by rw [← hstep]; exact hn⟩
    · rintro ⟨n, m, hn⟩; exact ⟨n + 1, m, by rw [hstep]; exact hn⟩

/-- C11: on closed, guarded heaps validation always returns, and its verdict is the membership specification. -/
theorem c11_validation_total (E : Ext) (h : St) (hc : Closed h) (hg : Guarded h) (a : Addr)
    (ha : a < h.bases.length) (v : GoVal) (hv : GoValue v) :
    ∃ n, ∀ k, n ≤ k → (validate E h k a v = .ok () ∧ Valid E h a v) ∨
      ((∃ m, validate E h k a v = .err m) ∧ ¬ Valid E h a v) :=
  validate_decides E hc hg ha hv

/-- C11: termination alone needs only guardedness, for every value. -/
theorem c11_guarded_terminates (E : Ext) (h : St) (hg : Guarded h) (a : Addr) (v : GoVal) :
    ∃ n, ∀ k, n ≤ k → validate E h k a v ≠ .diverge := by
  obtain ⟨n, hn⟩ := validate_returns E hg a v
  exact ⟨n, fun k hk => by rw [validate_mono E h hk hn]; exact hn⟩

/-- C11, violation: a union that contains itself, directly or as a recursive reference, never returns for a value the
members before it reject. -/
theorem c11_self_union_diverges (E : Ext) (h : St) (a b : Addr) (anyOf : Option Nat)
    (enum : Option (List GoVal)) (hs : h.shapeAt a = some (.union anyOf enum)) (pre post : List Addr)
    (hm : h.slice anyOf = pre ++ b :: post) (hb : b = a ∨ h.shapeAt b = some (.recursive a)) (v : GoVal)
    (hpre : ∀ m ∈ pre, Rejects E h m v) : ∀ n, validate E h n a v = .diverge :=
  self_union_diverges E h a b anyOf enum hs pre post hm hb v hpre

/-- `A: string | A`, as parsing and unwrapping leave it. -/
def exSelf : St :=
  { bases := [{ shape := some (.union (some 0) none) }, { shape := some (.string {}) }, { shape := some (.recursive 0) }]
    slices := [[1, 2]] }

example (n : Nat) : validate exE exSelf n 0 (.int 1) = .diverge :=
  c11_self_union_diverges exE exSelf 0 2 (some 0) none rfl [1] [] rfl (Or.inr rfl) (.int 1)
    (by simp; exact ⟨1, "invalid type", by decide +kernel⟩) n

end GoRaml.Props
