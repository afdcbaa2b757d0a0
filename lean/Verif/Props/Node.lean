import Verif.Lemmas.Node
import Verif.Lemmas.Monad
import Verif.Props.Validate

/-!
# Values and examples in YAML (C53, C54)

`makeRootNode` makes the value of a facet, example, default or annotation from a YAML node; a file included inside a value is read by `includedData`.
-/

namespace GoRaml

open Spec

/-- The value of a file included inside a value: YAML content without any include in it, or the text of any other file. -/
inductive Spec.FileValue (E : Env) (location path : String) : GoVal → Prop where
  | yaml (text : String) (d : YNode) (v : GoVal) : E.file (E.joinDir location path) = some text →
      E.extOf path = ".yaml" ∨ E.extOf path = ".yml" → E.yamlParse text = some d →
      Denotes (fun n v => E.decodeAny n = some v) (fun _ _ => False) d v → FileValue E location path v
  | text (text : String) : E.file (E.joinDir location path) = some text →
      ¬ (E.extOf path = ".yaml" ∨ E.extOf path = ".yml") → FileValue E location path (.str text)

/-- What the value of a node may be. -/
def Spec.NodeValue (E : Env) (location : String) : YNode → GoVal → Prop :=
  Denotes (fun n v => E.decodeAny n = some v) (FileValue E location)

/-- The nodes a value can be made of. -/
def Spec.NodeReadable (E : Env) (location : String) : YNode → Prop :=
  Readable (fun n v => E.decodeAny n = some v) (FileValue E location)

theorem denotes_mono {lit : YNode → GoVal → Prop} {inc inc' : String → GoVal → Prop} (hi : ∀ p v, inc p v → inc' p v) :
    ∀ {n v}, Denotes lit inc n v → Denotes lit inc' n v := by
  intro n v h
  refine Denotes.rec (motive_1 := fun n v _ => Denotes lit inc' n v)
    (motive_2 := fun l vs _ => List.Forall₂ (Denotes lit inc') l vs) ?_ ?_ ?_ ?_ ?_ ?_ ?_ ?_ h
  · intro tag value n rest v _ ih; exact .document _ _ _ _ _ ih
  · intro tag value content ht; exact .text _ _ _ ht
  · intro value content v h; exact .include _ _ _ (hi _ _ h)
  · intro tag value content v ht hl; exact .scalar _ _ _ _ ht hl
  · intro tag value content vs _ ih; exact .sequence _ _ _ _ ih
  · intro tag value content vs m hl _ hm ih; exact .mapping _ _ _ _ _ hl ih hm
  · exact .nil
  · intro a b l1 l2 _ _ ih1 ih2; exact .cons ih1 ih2

theorem readable_congr {lit : YNode → GoVal → Prop} {inc inc' : String → GoVal → Prop}
    (hi : ∀ p, (∃ v, inc p v) ↔ ∃ v, inc' p v) (n : YNode) : Readable lit inc n ↔ Readable lit inc' n := by
  unfold Readable
  cases n.kind <;> simp [hi]

theorem includedData_ok {E : Env} {location path : String} {v : GoVal} (h : includedData E location path = .ok v) :
    FileValue E location path v := by
  unfold includedData at h
  obtain ⟨text, h1, h2⟩ := Out.bind_ok'.1 h
  have h1 := orErr_ok.1 h1
  split at h2
  · rename_i he
    obtain ⟨d, h3, h4⟩ := Out.bind_ok'.1 h2
    refine .yaml text d v h1 he (orErr_ok.1 h3) (denotes_mono ?_ (convert_ok d v h4))
    intro p v h; simp [nestedInclude] at h
  · rename_i he
    injection h2 with h2; subst h2
    exact .text text h1 he

theorem includedData_total {E : Env} {location path : String} {v : GoVal} (h : FileValue E location path v) :
    ∃ v, includedData E location path = .ok v := by
  unfold includedData
  cases h with
  | yaml text d v h1 he h3 hd =>
    simp only [h1, h3, orErr, Out.bind, if_pos he]
    refine convert_total d fun m hm => ?_
    have := denotes_readable hm hd
    exact (readable_congr (by intro p; simp [nestedInclude]) m).2 this
  | text text h1 he => simp only [h1, orErr, Out.bind, if_neg he]; exact ⟨_, rfl⟩

theorem includedData_diverge (E : Env) (location path : String) : includedData E location path ≠ .diverge := by
  unfold includedData
  cases E.file (E.joinDir location path) with
  | none => simp [orErr, Out.bind]
  | some text =>
    simp only [orErr, Out.bind]
    split_ifs
    · cases E.yamlParse text with
      | none => simp [orErr, Out.bind]
      | some d => simp only [orErr, Out.bind]; exact convert_diverge (by simp [nestedInclude]) d
    · simp

/-! ## C53 -/

/-- An environment: `int` scalars decode to the length of their text, one YAML file (`a.yaml`, which includes `b.txt`) and one text file. -/
def exEnv : Env where
  toExt := Props.exE
  file p := if p = "a.yaml" then some "A" else if p = "b.txt" then some "B" else if p = "c.yaml" then some "C" else none
  joinDir _ v := v
  baseName p := p
  extOf p := if p = "a.yaml" ∨ p = "c.yaml" then ".yaml" else ".txt"
  yamlParse t := if t = "A" then some (.mk .document "" "" [.mk .scalar "!include" "b.txt" []])
    else if t = "C" then some (.mk .document "" "" [.mk .mapping "!!map" "" [.str "k", .mk .scalar "!include" "b.txt" []]]) else none
  jsonFirst _ := none
  jsonSchema _ := none
  decodeAny n := if n.tag = "!!int" then some (.int n.value.length) else none
  decodeStr n := if n.tag = "!!str" then some (some n.value) else if n.tag = "!!null" then some none else none
  decodeBool n := if n.value = "true" then some (some true) else if n.value = "false" then some (some false) else none
  decodeUint _ := none
  decodeFloat _ := none
  bigInt _ := none

/-- C53: the value made from a node has the structure of the node: sequences in order, mappings by key with the last duplicate winning, texts as they are,
includes by the content of the file. -/
theorem c53_value_has_structure (E : Env) (location : String) (n : YNode) (v : GoVal) (ht : n.tag ≠ "!include")
    (hj : n.value.toList.head? ≠ some '{') (h : makeRootNode E n location = .ok v) : NodeValue E location n v := by
  unfold makeRootNode at h
  rw [if_neg ht, if_neg hj] at h
  exact denotes_mono (fun p v h => includedData_ok h) (convert_ok n v h)

/-- C53: a value is made exactly when every node it is made of can be read; in particular a node with an alias node in it, or one that includes a YAML file that
has an include in it, is rejected. -/
theorem c53_value_iff_readable (E : Env) (location : String) (n : YNode) (ht : n.tag ≠ "!include")
    (hj : n.value.toList.head? ≠ some '{') :
    (∃ v, makeRootNode E n location = .ok v) ↔ ∀ m, NodePart n m → NodeReadable E location m := by
  have hi : ∀ p, (∃ v, includedData E location p = .ok v) ↔ ∃ v, FileValue E location p v := fun p =>
    ⟨fun ⟨v, h⟩ => ⟨v, includedData_ok h⟩, fun ⟨_, h⟩ => includedData_total h⟩
  constructor
  · rintro ⟨v, h⟩ m hm
    exact denotes_readable hm (c53_value_has_structure E location n v ht hj h)
  · intro h
    unfold makeRootNode
    rw [if_neg ht, if_neg hj]
    exact convert_total n fun m hm => (readable_congr hi m).2 (h m hm)

/-- C53: an alias node anywhere in a value is rejected. -/
theorem c53_alias_rejected (E : Env) (location : String) (n m : YNode) (ht : n.tag ≠ "!include")
    (hj : n.value.toList.head? ≠ some '{') (hp : NodePart n m) (hk : m.kind = .alias) (v : GoVal) :
    makeRootNode E n location ≠ .ok v := by
  intro h
  have := (c53_value_iff_readable E location n ht hj).1 ⟨v, h⟩ m hp
  simp [NodeReadable, Readable, hk] at this

/-- C53: an include inside a YAML file that is itself included inside a value is rejected. -/
theorem c53_nested_include_rejected (E : Env) (location path text : String) (d m : YNode) (v : GoVal)
    (hf : E.file (E.joinDir location path) = some text) (he : E.extOf path = ".yaml" ∨ E.extOf path = ".yml")
    (hd : E.yamlParse text = some d) (hp : NodePart d m) (hk : m.kind = .scalar) (hm : m.tag = "!include")
    (n : YNode) (ht : n.tag ≠ "!include") (hj : n.value.toList.head? ≠ some '{') (inc : YNode)
    (hn : NodePart n inc) (hik : inc.kind = .scalar) (hit : inc.tag = "!include") (hiv : inc.value = path) :
    makeRootNode E n location ≠ .ok v := by
  intro h
  have := (c53_value_iff_readable E location n ht hj).1 ⟨v, h⟩ inc hn
  simp only [NodeReadable, Readable, hik, hit] at this
  simp at this
  obtain ⟨w, hw⟩ := this
  rw [hiv] at hw
  cases hw with
  | yaml text' d' v' h1 _ h3 hd' =>
    rw [hf] at h1; injection h1 with h1; subst h1
    rw [hd] at h3; injection h3 with h3; subst h3
    have := denotes_readable hp hd'
    simp [Readable, hk, hm] at this
  | text text' _ he' => exact he' he

/-- C53: making a value always terminates. -/
theorem c53_value_terminates (E : Env) (location : String) (n : YNode) : makeRootNode E n location ≠ .diverge := by
  unfold makeRootNode
  split_ifs
  · unfold makeIncludedNode; dsimp only
    cases E.file (E.joinDir location n.value) with
    | none => simp [orErr, Out.bind]
    | some text =>
      simp only [orErr, Out.bind]
      split_ifs
      · cases E.jsonFirst text <;> simp [orErr]
      · cases E.yamlParse text with
        | none => simp [orErr, Out.bind]
        | some d => simp only [orErr, Out.bind]; exact convert_diverge (includedData_diverge E _) d
      · simp
  · cases E.jsonDecode n.value <;> simp [orErr]
  · exact convert_diverge (includedData_diverge E _) n

/-- C53: a text that begins with a brace is read as JSON, and rejected if it is not. -/
theorem c53_brace_is_json (E : Env) (location tag : String) (value : String) (content : List YNode) (ht : tag ≠ "!include")
    (hj : value.toList.head? = some '{') (v : GoVal) :
    makeRootNode E (.mk .scalar tag value content) location = .ok v ↔ E.jsonDecode value = some v := by
  unfold makeRootNode
  rw [if_neg (show YNode.tag (.mk .scalar tag value content) ≠ "!include" from ht),
    if_pos (show (YNode.value (.mk .scalar tag value content)).toList.head? = some '{' from hj)]
  exact orErr_ok

/-- Finding: a value that is itself an include of a YAML file may hold one more level of includes, unlike an include inside a value. -/
theorem c53_root_include_nests :
    makeRootNode exEnv (.mk .scalar "!include" "c.yaml" []) "m.raml" = .ok (.map [("k", .str "B")]) ∧
    ∃ msg, makeRootNode exEnv (.mk .sequence "!!seq" "" [.mk .scalar "!include" "c.yaml" []]) "m.raml" = .err msg :=
  ⟨by rfl, _, by rfl⟩

/-- A mapping with a duplicate key, a sequence and a time stamp. -/
example : makeRootNode exEnv (.mk .mapping "!!map" "" [.str "a", .str "x", .str "b",
      .mk .sequence "!!seq" "" [.mk .scalar "!!int" "17" [], .mk .scalar "!!timestamp" "2020-01-01" []], .str "a", .str "y"]) "m.raml" =
    .ok (.map [("a", .str "y"), ("b", .arr [.int 2, .str "2020-01-01"])]) := by rfl

example : makeRootNode exEnv (.mk .sequence "!!seq" "" [.mk .scalar "!include" "b.txt" []]) "m.raml" = .ok (.arr [.str "B"]) := by rfl

example : NodePart (.mk .sequence "!!seq" "" [.mk .alias "" "x" []]) (.mk .alias "" "x" []) :=
  .sequence _ _ _ _ _ (by simp) (.refl _)

/-! ## C54 -/

theorem findValueKey_spec : ∀ (l : List YNode) (r : Option YNode), findValueKey l = .ok r →
    match r with
    | some v => ∃ pre k post, mapEntries l = pre ++ (k, v) :: post ∧ k.value = "value" ∧ ∀ e ∈ pre, e.1.value ≠ "value"
    | none => l.length % 2 = 0 ∧ ∀ e ∈ mapEntries l, e.1.value ≠ "value"
  | [], r, h => by
    simp only [findValueKey] at h; injection h with h; subst h; simp [mapEntries]
  | [_], r, h => by simp [findValueKey] at h
  | k :: x :: rest, r, h => by
    simp only [findValueKey] at h
    split at h
    · rename_i hk
      injection h with h; subst h
      exact ⟨[], k, mapEntries rest, rfl, hk, by simp⟩
    · rename_i hk
      have := findValueKey_spec rest r h
      cases r with
      | none =>
        refine ⟨by have := this.1; simp only [List.length_cons]; omega, ?_⟩
        intro e he
        simp only [mapEntries, List.mem_cons] at he
        rcases he with rfl | he
        · exact hk
        · exact this.2 e he
      | some v =>
        obtain ⟨pre, k', post, h1, h2, h3⟩ := this
        refine ⟨(k, x) :: pre, k', post, by simp [mapEntries, h1], h2, ?_⟩
        intro e he
        rcases List.mem_cons.1 he with rfl | he
        · exact hk
        · exact h3 e he

theorem findValueKey_none : ∀ (l : List YNode), l.length % 2 = 0 → (∀ e ∈ mapEntries l, e.1.value ≠ "value") →
    findValueKey l = .ok none
  | [], _, _ => rfl
  | [_], h, _ => by simp at h
  | k :: x :: rest, h, hk => by
    simp only [findValueKey]
    rw [if_neg (hk (k, x) (by simp [mapEntries]))]
    exact findValueKey_none rest (by simp only [List.length_cons] at h; omega) fun e he => hk e (by simp [mapEntries, he])

theorem exampleDecode_ok {E : Env} {location : String} {k v : YNode} {ex ex' : Example} {h h' : St}
    (hr : exampleDecode E location k v ex h = (.ok ex', h')) :
    ex'.strict = (if k.value = "strict" then ((E.decodeBool v).join).getD ex.strict else ex.strict) := by
  unfold exampleDecode at hr
  by_cases h0 : k.value = "strict"
  · rw [if_pos h0] at hr ⊢
    obtain ⟨b, h1, e1, e2⟩ := M.bind_ok.1 hr
    obtain ⟨f1, rfl⟩ := M.lift_ok.1 e1
    obtain ⟨rfl, rfl⟩ := M.ret_ok.1 e2
    rw [orErr_ok.1 f1]
    cases b <;> simp
  · rw [if_neg h0] at hr ⊢
    have key : ∀ {α : Type} {m : M St α}, M.bind m (fun _ => M.ret ex) h = (.ok ex', h') → ex' = ex := by
      intro α m hm
      obtain ⟨_, h1, _, e2⟩ := M.bind_ok.1 hm
      exact (M.ret_ok.1 e2).1.symm
    split_ifs at hr
    · rw [key hr]
    · rw [key hr]
    · rw [key hr]
    · rw [(M.ret_ok.1 hr).1.symm]

/-- The strictness after reading the entries `l`, when it was `s` before: the last `strict` entry that is not null decides. -/
def Spec.strictAfter (E : Env) (s : Bool) : List (YNode × YNode) → Bool
  | [] => s
  | (k, v) :: rest => strictAfter E (if k.value = "strict" then ((E.decodeBool v).join).getD s else s) rest

theorem exampleEntries_ok {E : Env} {location : String} : ∀ (l : List YNode) (ex ex' : Example) (h h' : St),
    exampleEntries E location l ex h = (.ok ex', h') → ex'.strict = strictAfter E ex.strict (mapEntries l)
  | [], ex, ex', h, h', hr => by
    simp only [exampleEntries] at hr
    rw [(M.ret_ok.1 hr).1.symm]; rfl
  | [_], ex, ex', h, h', hr => by simp [exampleEntries, M.panic] at hr
  | k :: v :: rest, ex, ex', h, h', hr => by
    simp only [exampleEntries] at hr
    obtain ⟨ex1, h1, e1, e2⟩ := M.bind_ok.1 hr
    rw [exampleEntries_ok rest ex1 ex' h1 h' e2, exampleDecode_ok e1]
    rfl

/-- C54: a mapping with a `value` key is a detailed example: its data is the value of the (first) `value` entry and its strictness is given by its `strict` entry. -/
theorem c54_detailed_example (E : Env) (n : YNode) (location : String) (h h' : St) (ex : Example) (hk : n.kind = .mapping)
    (hv : "value" ∈ (mapEntries n.content).map (·.1.value)) (hr : makeExample E n location h = (.ok ex, h')) :
    (∃ pre k v post, mapEntries n.content = pre ++ (k, v) :: post ∧ k.value = "value" ∧ (∀ e ∈ pre, e.1.value ≠ "value") ∧
      makeRootNode E v location = .ok ex.data) ∧
    ex.strict = strictAfter E true (mapEntries n.content) := by
  unfold makeExample at hr
  rw [if_pos hk] at hr
  obtain ⟨vk, h1, e1, e2⟩ := M.bind_ok.1 hr
  obtain ⟨f1, rfl⟩ := M.lift_ok.1 e1
  have hs := findValueKey_spec _ _ f1
  cases vk with
  | none =>
    obtain ⟨e, he, hev⟩ := List.mem_map.1 hv
    exact absurd hev (hs.2 e he)
  | some v =>
    obtain ⟨pre, k, post, h2, h3, h4⟩ := hs
    obtain ⟨ex1, h5, e3, e4⟩ := M.bind_ok.1 e2
    obtain ⟨d, h6, e5, e6⟩ := M.bind_ok.1 e4
    obtain ⟨f5, rfl⟩ := M.lift_ok.1 e5
    obtain ⟨rfl, rfl⟩ := M.ret_ok.1 e6
    exact ⟨⟨pre, k, v, post, h2, h3, h4, f5⟩, exampleEntries_ok _ _ _ _ _ e3⟩

/-- C54: any other node is the example value itself; nothing else of it is read, and the example is strict. -/
theorem c54_plain_example (E : Env) (n : YNode) (location : String) (h : St)
    (hk : n.kind ≠ .mapping ∨ (n.content.length % 2 = 0 ∧ "value" ∉ (mapEntries n.content).map (·.1.value))) :
    makeExample E n location h = ((makeRootNode E n location).bind fun d => .ok { data := d, strict := true }, h) := by
  have hl : M.bind (M.lift (makeRootNode E n location)) (fun d => M.ret (σ := St) { data := d, strict := true }) h =
      ((makeRootNode E n location).bind fun d => .ok ({ data := d, strict := true } : Example), h) := by
    cases makeRootNode E n location <;> rfl
  unfold makeExample
  by_cases hm : n.kind = .mapping
  · rw [if_pos hm]
    obtain ⟨h1, h2⟩ := hk.resolve_left (by simp [hm])
    have := findValueKey_none n.content h1 (fun e he hev => h2 (List.mem_map.2 ⟨e, he, hev⟩))
    rw [this]
    exact hl
  · rw [if_neg hm]; exact hl

/-- A detailed example that is not strict. -/
example : makeExample exEnv (.mk .mapping "!!map" "" [.str "strict", .mk .scalar "!!bool" "false" [], .str "value", .mk .scalar "!!int" "17" []]) "m" {} =
    (.ok { data := .int 2, strict := false }, {}) := by rfl

/-- An object example. -/
example : makeExample exEnv (.mk .mapping "!!map" "" [.str "strict", .str "no", .str "v", .mk .scalar "!!int" "17" []]) "m" {} =
    (.ok { data := .map [("strict", .str "no"), ("v", .int 2)], strict := true }, {}) := by rfl

end GoRaml
