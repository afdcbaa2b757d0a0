import Verif.Lemmas.LoadEntry
import Verif.Props.Names
import Verif.Props.Node

/-!
# Loading files (C38, C39) and what parsing leaves (C58, C59, C60)

`decodeEntry E n text path {}` decodes the document `text` at `path` and every file it refers to; `parseFromPath E n m path {}` does so for a file, and then
resolves all types and annotations.  `n` bounds the nested calls and `m` the turns of a loop; the outcome `.diverge` says that a bound was reached.
-/

namespace GoRaml

open Spec

/-! ## Examples -/

/-- A mapping node. -/
def exMap (l : List (String × YNode)) : YNode := .mk .mapping "!!map" "" (l.flatMap fun e => [.str e.1, e.2])

/-- A document. -/
def exDoc (l : List (String × YNode)) : YNode := .mk .document "" "" [exMap l]

/-- Files, each with its text and its document; paths are taken as they are. -/
def exFilesEnv (files : List (String × String × YNode)) : Env where
  toExt := Props.exE
  file p := (files.find? (·.1 = p)).map (·.2.1)
  joinDir _ v := v
  baseName p := p
  extOf _ := ".raml"
  yamlParse t := (files.find? (·.2.1 = t)).map (·.2.2)
  jsonFirst _ := none
  jsonSchema _ := none
  decodeAny n := some (.str n.value)
  decodeStr n := some (some n.value)
  decodeBool n := some (some (n.value == "true"))
  decodeUint _ := none
  decodeFloat _ := none
  bigInt _ := none

/-- Two libraries that use each other, and a data type that one of them includes, which includes another. -/
def exFiles : List (String × String × YNode) := [
  ("a.raml", "#%RAML 1.0 Library\na", exDoc [
    ("uses", exMap [("b", .str "b.raml")]),
    ("annotationTypes", exMap [("note", .str "string")]),
    ("types", exMap [
      ("T", exMap [("type", .str "b.U[] | nil"), ("(note)", .str "x"), ("(b.mark)", .str "y")]),
      ("V", exMap [("type", .mk .scalar "!include" "d.raml" []), ("description", .str "text")])])]),
  ("b.raml", "#%RAML 1.0 Library\nb", exDoc [
    ("uses", exMap [("a", .str "a.raml")]),
    ("annotationTypes", exMap [("mark", .str "string")]),
    ("types", exMap [("U", .str "string"), ("W", .str "a.V")])]),
  ("d.raml", "#%RAML 1.0 DataType\nd", exDoc [("type", .mk .scalar "!include" "e.raml" [])]),
  ("e.raml", "#%RAML 1.0 DataType\ne", exDoc [("type", .str "object")])]

/-- Two data types that include each other. -/
def exCycle : List (String × String × YNode) := [
  ("p.raml", "#%RAML 1.0 DataType\np", exDoc [("type", .mk .scalar "!include" "q.raml" [])]),
  ("q.raml", "#%RAML 1.0 DataType\nq", exDoc [("type", .mk .scalar "!include" "p.raml" [])])]

/-- A library that includes a data type that uses the library. -/
def exBack : List (String × String × YNode) := [
  ("l.raml", "#%RAML 1.0 Library\nl", exDoc [("types", exMap [("T", exMap [("type", .mk .scalar "!include" "d.raml" [])]), ("U", .str "string")])]),
  ("d.raml", "#%RAML 1.0 DataType\nd", exDoc [("uses", exMap [("l", .str "l.raml")]), ("type", .str "l.U")])]

/-- How a run ended: the fragment, or none. -/
def exResult {α : Type} (r : Out α × St) : Option α :=
  match r.1 with
  | .ok x => some x
  | _ => none

/-- Files with ranks such that includes raise them and `uses` do not lower them have no way back. -/
theorem noWayBack_of_rank {E : Env} (r : String → Nat) (h1 : ∀ p q, Includes E p q → r p < r q) (h2 : ∀ p q, Uses E p q → r p ≤ r q) : NoWayBack E := by
  intro p q h h'
  have hle : r q ≤ r p := by
    clear h
    induction h' with
    | refl => exact Nat.le_refl _
    | tail _ h ih =>
      rcases h with h | h
      · exact Nat.le_trans ih (Nat.le_of_lt (h1 _ _ h))
      · exact Nat.le_trans ih (h2 _ _ h)
  have := h1 _ _ h
  omega

theorem noIncludeCycle_of_noWayBack {E : Env} (h : NoWayBack E) : NoIncludeCycle E := by
  intro p hp
  obtain ⟨q, h1, h2⟩ := Relation.TransGen.head'_iff.1 hp
  exact h p q h1 (Relation.ReflTransGen.mono (fun _ _ h => .inl h) _ _ h2)

mutual
/-- Every node of a tree passes the test. -/
def exAll (P : YNode → Bool) : YNode → Bool
  | .mk k t v c => P (.mk k t v c) && exAllList P c
/-- Every node of these trees passes the test. -/
def exAllList (P : YNode → Bool) : List YNode → Bool
  | [] => true
  | n :: rest => exAll P n && exAllList P rest
end

theorem exAllList_mem {P : YNode → Bool} {n : YNode} {l : List YNode} (h : exAllList P l = true) (hn : n ∈ l) : exAll P n = true := by
  induction l with
  | nil => cases hn
  | cons a l ih =>
    simp only [exAllList, Bool.and_eq_true] at h
    rcases List.mem_cons.1 hn with rfl | hn
    · exact h.1
    · exact ih h.2 hn

theorem exAll_within {P : YNode → Bool} {t d : YNode} (h : exAll P d = true) (hw : Within t d) : P t = true := by
  induction hw with
  | refl => cases t; simp only [exAll, Bool.and_eq_true] at h; exact h.1
  | @step u v h1 _ ih => cases v; simp only [exAll, Bool.and_eq_true] at h; exact ih (exAllList_mem h.2 h1)

/-- The keys and values of a mapping. -/
def exPairs : List YNode → List (YNode × YNode)
  | k :: v :: rest => (k, v) :: exPairs rest
  | _ => []

theorem exPairs_entry {k v : YNode} {l : List YNode} (h : Entry k v l) : (k, v) ∈ exPairs l := by
  induction h with
  | here => exact List.mem_cons_self
  | there _ ih => exact List.mem_cons_of_mem _ ih

theorem exFiles_finite (files : List (String × String × YNode)) : FinitelyManyFiles (exFilesEnv files) := by
  refine ⟨files.map (·.1), fun p hp => ?_⟩
  simp only [exFilesEnv, ne_eq, Option.map_eq_none_iff, List.find?_eq_none] at hp
  push Not at hp
  obtain ⟨e, h1, h2⟩ := hp
  exact List.mem_map.2 ⟨e, h1, by simpa using h2⟩

theorem exFiles_document {files : List (String × String × YNode)} {p : String} {d : YNode} (h : Document (exFilesEnv files) p d) :
    ∃ e ∈ files, e.1 = p ∧ ∃ e' ∈ files, e'.2.1 = e.2.1 ∧ e'.2.2 = d := by
  obtain ⟨text, h1, h2⟩ := h
  simp only [exFilesEnv, Option.map_eq_some_iff] at h1 h2
  obtain ⟨e, h1, h1'⟩ := h1
  obtain ⟨e', h2, h2'⟩ := h2
  refine ⟨e, List.mem_of_find?_eq_some h1, by simpa using List.find?_some h1, e', List.mem_of_find?_eq_some h2, ?_, h2'⟩
  have := List.find?_some h2
  simp only [decide_eq_true_eq] at this
  rw [this, h1']

/-- A relation that contains the includes of the files. -/
theorem exFiles_includes {files : List (String × String × YNode)} (R : String → String → Bool)
    (h : (files.all fun e => files.all fun e' => e'.2.1 != e.2.1 || exAll (fun t => t.tag != "!include" || R e.1 t.value) e'.2.2) = true) (p q : String)
    (hi : Includes (exFilesEnv files) p q) : R p q = true := by
  obtain ⟨d, t, hd, hw, ht, rfl⟩ := hi
  obtain ⟨e, he, rfl, e', he', h1, rfl⟩ := exFiles_document hd
  have h2 := List.all_eq_true.1 (List.all_eq_true.1 h e he) e' he'
  simp only [h1, bne_self_eq_false, Bool.false_or] at h2
  have h3 := exAll_within h2 hw
  simpa [ht, exFilesEnv] using h3

/-- A relation that contains the `uses` of the files. -/
theorem exFiles_uses {files : List (String × String × YNode)} (R : String → String → Bool)
    (h : (files.all fun e => files.all fun e' => e'.2.1 != e.2.1 || (exPairs (docRoot e'.2.2).content).all fun kv =>
      kv.1.value != "uses" || (exPairs kv.2.content).all fun kv => R e.1 kv.2.value) = true) (p q : String) (hi : Uses (exFilesEnv files) p q) : R p q = true := by
  obtain ⟨d, _, hd, ⟨k, v, k', v', hw, hk, hw', rfl⟩, rfl⟩ := hi
  obtain ⟨e, he, rfl, e', he', h1, rfl⟩ := exFiles_document hd
  have h2 := List.all_eq_true.1 (List.all_eq_true.1 h e he) e' he'
  simp only [h1, bne_self_eq_false, Bool.false_or] at h2
  have h3 := List.all_eq_true.1 h2 _ (exPairs_entry hw)
  simp only [hk, bne_self_eq_false, Bool.false_or] at h3
  exact List.all_eq_true.1 h3 _ (exPairs_entry hw')

/-- Ranks for `exFiles`. -/
def exRank (p : String) : Nat := if p = "d.raml" then 1 else if p = "e.raml" then 2 else 0

theorem exFiles_noWayBack : NoWayBack (exFilesEnv exFiles) := by
  refine noWayBack_of_rank exRank (fun p q h => ?_) (fun p q h => ?_)
  · simpa using exFiles_includes (fun p q => decide (exRank p < exRank q)) (by decide +kernel) p q h
  · simpa using exFiles_uses (fun p q => decide (exRank p ≤ exRank q)) (by decide +kernel) p q h

/-! ## C39 -/

/-- C39, where it holds: if no file includes itself through `!include`, decoding ends, however libraries use each other. -/
theorem c39_decoding_ends (E : Env) (hf : FinitelyManyFiles E) (h : NoIncludeCycle E) (text path : String) :
    ∃ N, ∀ n, N ≤ n → (decodeEntry E n text path {}).1 ≠ .diverge :=
  Load.decodeEntry_ends hf h text path

/-- The hypotheses are met by files with a cycle of libraries and a chain of includes. -/
example : FinitelyManyFiles (exFilesEnv exFiles) ∧ NoIncludeCycle (exFilesEnv exFiles) ∧
    exResult (decodeEntry (exFilesEnv exFiles) 20 "#%RAML 1.0 Library\na" "a.raml" {}) = some (.library 0) :=
  ⟨exFiles_finite _, noIncludeCycle_of_noWayBack exFiles_noWayBack, by decide +kernel⟩

/-- The file `p` is a data type that consists of `type: !include v`. -/
def Spec.OnlyIncludes (E : Env) (p v : String) : Prop :=
  ∃ text tag, E.file p = some text ∧ readHead text = .ok "#%RAML 1.0 DataType" ∧ ¬ ".json".toList <:+ p.toList ∧ tag ≠ "!!null" ∧
    E.yamlParse text = some (.mk .document "" "" [.mk .mapping tag "" [.str "type", .mk .scalar "!include" v []]])

theorem bind_diverges {α β : Type} {m : M St α} {f : α → M St β} {s : St} (h : (m s).1 = .diverge) : (M.bind m f s).1 = .diverge := by
  unfold M.bind
  cases hm : m s with
  | mk o t => rw [hm] at h; simp only at h; subst h; rfl

theorem bind_step {α β : Type} {m : M St α} {f : α → M St β} {s s' : St} {x : α} (h : m s = (.ok x, s')) : M.bind m f s = f x s' := by
  unfold M.bind; rw [h]

theorem parseDataType_reads {E : Env} {c : Calls} {p text : String} {s : St} (hs : getFragment s p = none) (hfile : E.file p = some text)
    (hhead : readHead text = .ok "#%RAML 1.0 DataType") (hjson : ¬ ".json".toList <:+ p.toList) : parseDataType E c p s = decodeDataType E c text p s := by
  have hk : checkFragmentKind p text .dataType = .ok () := by
    unfold checkFragmentKind
    rw [if_neg (fun h => hjson h.2), hhead]
    rfl
  unfold parseDataType
  rw [hs, hfile]
  simp only [hk]
  rfl

/-- Include cycles recurse. -/
theorem includes_diverge {E : Env} {S : String → Prop} (hS : ∀ p, S p → ∃ v, OnlyIncludes E p v ∧ S (E.joinDir p v)) :
    ∀ n (s : St), (∀ p, S p → getFragment s p = none) → ∀ p text, S p → E.file p = some text → (decodeDataType E (calls E n) text p s).1 = .diverge := by
  intro n
  induction n using Nat.strong_induction_on with
  | _ n ih =>
    intro s hs p text hp hfile
    obtain ⟨v, ⟨text', tag, hfile', hhead, hjson, htag, hdoc⟩, hnext⟩ := hS p hp
    rw [hfile] at hfile'; cases hfile'
    have hent : dataTypeEntries [YNode.str "type", .mk .scalar "!include" v []] [] [] = .ok ([], [YNode.str "type", .mk .scalar "!include" v []]) := by
      simp [dataTypeEntries, YNode.str, YNode.value]
    unfold decodeDataType
    rw [if_neg hjson]
    refine bind_diverges ?_
    unfold decodeFragment
    rw [hdoc]
    have hroot : docRoot (.mk .document "" "" [.mk .mapping tag "" [YNode.str "type", .mk .scalar "!include" v []]]) =
        .mk .mapping tag "" [YNode.str "type", .mk .scalar "!include" v []] := rfl
    simp only []
    rw [hroot, if_neg (by simpa [YNode.tag] using htag), if_neg (by simp [YNode.kind])]
    unfold unmarshalDataType
    rw [bind_step (x := ([], [YNode.str "type", .mk .scalar "!include" v []])) (s' := s) (by rw [← hent]; rfl)]
    refine bind_diverges ?_
    match n with
    | 0 => rfl
    | n + 1 =>
      show (makeNewShapeYAML E (calls E n) _ _ _ s).1 = .diverge
      unfold makeNewShapeYAML
      obtain ⟨a, s1, h1, hfr⟩ : ∃ a s1, makeBaseShape (E.baseName p) p s = (.ok a, s1) ∧ s1.fragments = s.fragments := ⟨_, _, rfl, rfl⟩
      rw [bind_step h1]
      have hdec : decode E (calls E n) a p (.mk .mapping "" "" [YNode.str "type", .mk .scalar "!include" v []]) s1 = (.ok (some (.mk .scalar "!include" v []), some []), s1) := by
        simp [decode, YNode.kind, YNode.content, decodeEntries, decodeValueNode, YNode.str, YNode.value, M.bind, M.ret]
      rw [bind_step hdec]
      refine bind_diverges ?_
      simp only [makeShapeType, YNode.kind]
      have htg : (YNode.mk .scalar "!include" v []).tag = "!include" := rfl
      rw [if_neg (by rw [htg]; decide), if_pos htg]
      refine bind_diverges ?_
      match n with
      | 0 => rfl
      | n + 1 =>
        have hs1 : ∀ q, S q → getFragment s1 q = none := fun q hq => by
          have := hs q hq
          unfold getFragment at this ⊢
          rw [hfr]; exact this
        obtain ⟨v', ⟨text2, tag2, hfile2, hhead2, hjson2, _⟩, _⟩ := hS _ hnext
        show (parseDataType E (calls E n) (E.joinDir p v) s1).1 = .diverge
        rw [parseDataType_reads (hs1 _ hnext) hfile2 hhead2 hjson2]
        exact ih n (by omega) s1 hs1 _ text2 hnext hfile2

/-- C39 is false of the code in general: if the files in `S` are data types each of which consists of an `!include` of a file in `S`, parsing any of them never
ends, whatever the bound. -/
theorem c39_include_cycle_diverges (E : Env) (S : String → Prop) (hS : ∀ p, S p → ∃ v, OnlyIncludes E p v ∧ S (E.joinDir p v)) (n m : Nat) (path : String)
    (hp : S path) : (parseFromPath E n m path {}).1 = .diverge := by
  obtain ⟨v, ⟨text, tag, hfile, hhead, _⟩, _⟩ := hS path hp
  unfold parseFromPath
  rw [hfile]
  simp only [parseFragment]
  refine bind_diverges ?_
  unfold decodeEntry
  rw [bind_step (x := "#%RAML 1.0 DataType") (s' := {}) (by rw [hhead]; rfl),
    bind_step (m := M.lift (identifyFragment "#%RAML 1.0 DataType")) (x := .dataType) (s' := {}) rfl]
  exact bind_diverges (includes_diverge hS n {} (fun _ _ => rfl) path text hp hfile)

/-- Such files: two data types that include each other. -/
example : ∀ p, p = "p.raml" ∨ p = "q.raml" →
    ∃ v, OnlyIncludes (exFilesEnv exCycle) p v ∧ ((exFilesEnv exCycle).joinDir p v = "p.raml" ∨ (exFilesEnv exCycle).joinDir p v = "q.raml") := by
  rintro p (rfl | rfl)
  · exact ⟨"q.raml", ⟨"#%RAML 1.0 DataType\np", "!!map", rfl, by decide +kernel, by decide +kernel, by decide +kernel, rfl⟩, .inr rfl⟩
  · exact ⟨"p.raml", ⟨"#%RAML 1.0 DataType\nq", "!!map", rfl, by decide +kernel, by decide +kernel, by decide +kernel, rfl⟩, .inl rfl⟩

/-! ## C38 -/

/-- C38: decoding ends for every `uses` graph, in particular when no file has an `!include`. -/
theorem c38_libraries_end (E : Env) (hf : FinitelyManyFiles E) (h : ∀ p q, ¬ Includes E p q) (text path : String) :
    ∃ N, ∀ n, N ≤ n → (decodeEntry E n text path {}).1 ≠ .diverge := by
  refine c39_decoding_ends E hf (fun p hp => ?_) text path
  cases hp with
  | single h1 => exact h _ _ h1
  | tail _ h1 => exact h _ _ h1

/-- C38: each file is decoded at most once: however decoding a file ends (other than by a panic or by reaching the bound), there is at most one library and one
data type for each path, and never both. -/
theorem c38_each_file_once (E : Env) (h : NoWayBack E) (n : Nat) (text path : String) (hfile : E.file path = some text) (o : Out FragRef) (s : St)
    (hr : decodeEntry E n text path {} = (o, s)) (ho : (∃ f, o = .ok f) ∨ ∃ e, o = .err e) :
    (∀ (i j : Nat) (l l' : Lib), s.libs[i]? = some l → s.libs[j]? = some l' → l.location = l'.location → i = j) ∧
    (∀ (i j : Nat) (d d' : DT), s.dts[i]? = some d → s.dts[j]? = some d' → d.location = d'.location → i = j) ∧
    (∀ (i j : Nat) (l : Lib) (d : DT), s.libs[i]? = some l → s.dts[j]? = some d → l.location ≠ d.location) := by
  have hrun := Load.decodeEntry_keeps (K := Load.ownCtl) trivial (Load.ownRegs h) n hfile ⟨fun i l hi => by simp at hi, fun i l hi => by simp at hi⟩
  unfold Load.Run at hrun
  rw [hr] at hrun
  have hown : Load.Own s := by
    rcases ho with ⟨f, rfl⟩ | ⟨e, rfl⟩
    · exact hrun.2.1
    · exact hrun.2.1
  refine ⟨fun i j l l' hi hj e => ?_, fun i j l l' hi hj e => ?_, fun i j l d hi hj e => ?_⟩
  · have h1 := hown.lib i l hi
    rw [e, hown.lib j l' hj] at h1
    simpa using h1.symm
  · have h1 := hown.dt i l hi
    rw [e, hown.dt j l' hj] at h1
    simpa using h1.symm
  · have h1 := hown.lib i l hi
    rw [e, hown.dt j d hj] at h1
    simp at h1

/-- The hypotheses are met: two libraries, two data types. -/
example : NoWayBack (exFilesEnv exFiles) ∧ exResult (decodeEntry (exFilesEnv exFiles) 20 "#%RAML 1.0 Library\na" "a.raml" {}) = some (.library 0) ∧
    (decodeEntry (exFilesEnv exFiles) 20 "#%RAML 1.0 Library\na" "a.raml" {}).2.libs.map (·.location) = ["a.raml", "b.raml"] ∧
    (decodeEntry (exFilesEnv exFiles) 20 "#%RAML 1.0 Library\na" "a.raml" {}).2.dts.map (·.location) = ["e.raml", "d.raml"] :=
  ⟨exFiles_noWayBack, by decide +kernel, by decide +kernel, by decide +kernel⟩

/-- C38 is false of the code in general: a library that includes a data type that uses the library is decoded twice, and the model has two libraries for one
file.  (The data type is linked to the first, and the parse returns the second.) -/
theorem c38_violated : exResult (parseFromPath (exFilesEnv exBack) 20 20 "l.raml" {}) = some (.library 1) ∧
    (parseFromPath (exFilesEnv exBack) 20 20 "l.raml" {}).2.libs.map (·.location) = ["l.raml", "l.raml"] ∧
    (parseFromPath (exFilesEnv exBack) 20 20 "l.raml" {}).2.dts.map (·.uses) = [[("l", "l.raml", some 0)]] :=
  ⟨by decide +kernel, by decide +kernel, by decide +kernel⟩

/-- A fragment of the model, at `location` with the given `uses`. -/
inductive Spec.FragmentAt (s : St) (location : String) (uses : OMap (String × Option Nat)) : Prop where
  | library (i : Nat) (l : Lib) : s.libs[i]? = some l → l.location = location → l.uses = uses → FragmentAt s location uses
  | dataType (i : Nat) (d : DT) : s.dts[i]? = some d → d.location = location → d.uses = uses → FragmentAt s location uses

/-- C38: after a successful parse every entry of the `uses` of every library and data type is linked to a library loaded from the file that the entry names, and a
fragment is registered for that file. -/
theorem c38_uses_linked (E : Env) (n m : Nat) (path : String) (f : FragRef) (s : St) (h : parseFromPath E n m path {} = (.ok f, s))
    (location : String) (uses : OMap (String × Option Nat)) (hl : FragmentAt s location uses) (key value : String) (link : Option Nat)
    (hu : OMap.get uses key = some (value, link)) :
    ∃ j l, link = some j ∧ s.libs[j]? = some l ∧ l.location = E.joinDir location value ∧ ∃ fr, getFragment s (E.joinDir location value) = some fr := by
  obtain ⟨hw, _⟩ := Load.parseFromPath_ok (K := Load.anyCtl) trivial (Load.anyRegs E) (fun _ _ => trivial) (fun _ _ _ => trivial) trivial h
  cases hl with
  | library i l hi h1 h2 => subst h1 h2; exact hw.w.libLinked i l hi id key value link hu
  | dataType i l hi h1 h2 => subst h1 h2; exact hw.w.dtLinked i l hi id key value link hu

/-- C38: the library an entry of `uses` is linked to is the one registered for its path, if no file leads back to one that includes it. -/
theorem c38_registered (E : Env) (hE : NoWayBack E) (n m : Nat) (path : String) (f : FragRef) (s : St) (h : parseFromPath E n m path {} = (.ok f, s))
    (location : String) (uses : OMap (String × Option Nat)) (hl : FragmentAt s location uses) (key value : String) (link : Option Nat)
    (hu : OMap.get uses key = some (value, link)) :
    ∃ j, link = some j ∧ getFragment s (E.joinDir location value) = some (.library j) := by
  obtain ⟨j, l, h1, h2, h3, _⟩ := c38_uses_linked E n m path f s h location uses hl key value link hu
  obtain ⟨_, hown⟩ := Load.parseFromPath_ok (K := Load.ownCtl) trivial (Load.ownRegs hE) (fun _ hx => ⟨hx.lib, hx.dt⟩) (fun _ _ hx => ⟨hx.lib, hx.dt⟩)
    ⟨fun i l hi => by simp at hi, fun i l hi => by simp at hi⟩ h
  refine ⟨j, h1, ?_⟩
  rw [← h3]
  exact hown.lib j l h2

/-- C38: the fragment that a parse returns is of the kind that the first line of the file names, comes from the file, and is the one registered for its
path, if no file leads back to one that includes it. -/
theorem c38_entry (E : Env) (n m : Nat) (path : String) (f : FragRef) (s : St) (h : parseFromPath E n m path {} = (.ok f, s)) :
    (∃ text pad rest : String, E.file path = some text ∧ (∀ c ∈ pad.toList, c = ' ' ∨ c = '\r') ∧
      text = header (match f with | .library _ => .library | .dataType _ => .dataType | .namedExample _ => .namedExample) ++ pad ++ "\n" ++ rest) ∧
    (match f with
      | .library i => ∃ l, s.libs[i]? = some l ∧ l.location = path
      | .dataType i => ∃ d, s.dts[i]? = some d ∧ d.location = path
      | .namedExample i => i < s.nes.length) ∧
    (NoWayBack E → getFragment s path = some f) := by
  obtain ⟨h1, ⟨text, h2, h3⟩, h4⟩ := Load.parseFromPath_entry h
  obtain ⟨pad, rest, h5, h6⟩ := (Props.c55_fragment_kind text _).1 h3
  refine ⟨⟨text, pad, rest, h2, h5, by cases f <;> exact h6⟩, by cases f <;> exact h1, fun hE => ?_⟩
  obtain ⟨_, hown⟩ := Load.parseFromPath_ok (K := Load.ownCtl) trivial (Load.ownRegs hE) (fun _ hx => ⟨hx.lib, hx.dt⟩) (fun _ _ hx => ⟨hx.lib, hx.dt⟩)
    ⟨fun i l hi => by simp at hi, fun i l hi => by simp at hi⟩ h
  cases f with
  | library i => obtain ⟨l, q1, q2⟩ := h1; rw [← q2]; exact hown.lib i l q1
  | dataType i => obtain ⟨l, q1, q2⟩ := h1; rw [← q2]; exact hown.dt i l q1
  | namedExample i => exact h4 i rfl

/-- The hypotheses are met. -/
example : exResult (parseFromPath (exFilesEnv exFiles) 20 20 "a.raml" {}) = some (.library 0) ∧
    (parseFromPath (exFilesEnv exFiles) 20 20 "a.raml" {}).2.libs.map (·.uses) = [[("b", "b.raml", some 1)], [("a", "a.raml", some 0)]] ∧
    (parseFromPath (exFilesEnv exFiles) 20 20 "a.raml" {}).2.fragments.map (·.1) = ["e.raml", "d.raml", "a.raml", "b.raml"] :=
  ⟨by decide +kernel, by decide +kernel, by decide +kernel⟩

/-! ## C58 -/

/-- The types that a shape can be of, once references are resolved. -/
def Spec.builtinKinds : List String :=
  ["any", "nil", "object", "array", "string", "integer", "number", "datetime", "datetime-only", "date-only", "time-only", "file", "boolean", "union", "json"]

theorem kind_emptyShape (t : String) : Kind (emptyShape t) = "unknown" ∨ (Kind (emptyShape t) = t ∧ t ∈ builtinKinds) := by
  unfold emptyShape
  by_cases h1 : t = "any"
  · subst h1; right; decide +kernel
  rw [if_neg h1]
  by_cases h2 : t = "nil"
  · subst h2; right; decide +kernel
  rw [if_neg h2]
  by_cases h3 : t = "object"
  · subst h3; right; decide +kernel
  rw [if_neg h3]
  by_cases h4 : t = "array"
  · subst h4; right; decide +kernel
  rw [if_neg h4]
  by_cases h5 : t = "string"
  · subst h5; right; decide +kernel
  rw [if_neg h5]
  by_cases h6 : t = "integer"
  · subst h6; right; decide +kernel
  rw [if_neg h6]
  by_cases h7 : t = "number"
  · subst h7; right; decide +kernel
  rw [if_neg h7]
  by_cases h8 : t = "datetime"
  · subst h8; right; decide +kernel
  rw [if_neg h8]
  by_cases h9 : t = "datetime-only"
  · subst h9; right; decide +kernel
  rw [if_neg h9]
  by_cases h10 : t = "date-only"
  · subst h10; right; decide +kernel
  rw [if_neg h10]
  by_cases h11 : t = "time-only"
  · subst h11; right; decide +kernel
  rw [if_neg h11]
  by_cases h12 : t = "file"
  · subst h12; right; decide +kernel
  rw [if_neg h12]
  by_cases h13 : t = "boolean"
  · subst h13; right; decide +kernel
  rw [if_neg h13]
  by_cases h14 : t = "union"
  · subst h14; right; decide +kernel
  rw [if_neg h14]
  by_cases h15 : t = "json"
  · subst h15; right; decide +kernel
  rw [if_neg h15]
  exact .inl rfl

/-- C58: after a successful parse every type, named or anonymous, has a shape of the kind that its `Type` says, and that kind is one of the built-in ones: no
unresolved reference is left. -/
theorem c58_all_resolved (E : Env) (n m : Nat) (path : String) (f : FragRef) (s : St) (h : parseFromPath E n m path {} = (.ok f, s)) (a : Addr) (b : Base)
    (hb : s.base a = some b) : ∃ sh, b.shape = some sh ∧ Kind sh = b.type ∧ b.type ∈ builtinKinds := by
  obtain ⟨hw, _⟩ := Load.parseFromPath_ok (K := Load.anyCtl) trivial (Load.anyRegs E) (fun _ _ => trivial) (fun _ _ _ => trivial) trivial h
  obtain ⟨sh, h1, h2, h3⟩ := hw.typed hb
  rcases kind_emptyShape b.type with h4 | ⟨h4, h5⟩
  · rw [h2, h4] at h3; exact absurd rfl h3
  · exact ⟨sh, h1, h2.trans h4, h5⟩

/-- The hypotheses are met: there are types of several kinds, resolved from references. -/
example : exResult (parseFromPath (exFilesEnv exFiles) 20 20 "a.raml" {}) = some (.library 0) ∧
    (parseFromPath (exFilesEnv exFiles) 20 20 "a.raml" {}).2.bases.map (fun b => (b.name, b.type)) =
      [("note", "string"), ("T", "union"), ("V", "object"), ("d.raml", "object"), ("e.raml", "object"), ("mark", "string"), ("U", "string"), ("W", "object"),
       ("", "array"), ("", "string"), ("", "nil")] :=
  ⟨by decide +kernel, by decide +kernel⟩

/-! ## C59 -/

/-- C59: after a successful parse there is no dangling pointer in the model: every type, property, member, parent, alias, link and declared type is there. -/
theorem c59_well_formed (E : Env) (n m : Nat) (path : String) (f : FragRef) (s : St) (h : parseFromPath E n m path {} = (.ok f, s)) :
    WellFormed s ∧
    (∀ l ∈ s.libs, (∀ e ∈ l.types, IsBase s e.2) ∧ ∀ e ∈ l.annotationTypes, IsBase s e.2) ∧
    (∀ d ∈ s.dts, ∃ a, d.shape = some a ∧ IsBase s a) := by
  obtain ⟨hw, _⟩ := Load.parseFromPath_ok (K := Load.anyCtl) trivial (Load.anyRegs E) (fun _ _ => trivial) (fun _ _ _ => trivial) trivial h
  refine ⟨hw.wellFormed, fun l hl => ?_, fun d hd => ?_⟩
  · obtain ⟨i, hi⟩ := List.mem_iff_getElem?.1 hl
    exact ⟨(hw.w.lib i l hi).types, (hw.w.lib i l hi).annotationTypes⟩
  · obtain ⟨i, hi⟩ := List.mem_iff_getElem?.1 hd
    exact (hw.w.dt i d hi).shape

/-- C59: after a successful parse the IDs of all types are different. -/
theorem c59_unique_ids (E : Env) (n m : Nat) (path : String) (f : FragRef) (s : St) (h : parseFromPath E n m path {} = (.ok f, s)) (x y : Addr) (b c : Base)
    (hx : s.base x = some b) (hy : s.base y = some c) (he : b.id = c.id) : x = y := by
  obtain ⟨hw, _⟩ := Load.parseFromPath_ok (K := Load.anyCtl) trivial (Load.anyRegs E) (fun _ _ => trivial) (fun _ _ _ => trivial) trivial h
  exact hw.w.idInj x y b c hx hy he

/-! ## C60 -/

/-- C60: after a successful parse every annotation is linked to the annotation type that its name denotes where it stands. -/
theorem c60_annotations_linked (E : Env) (n m : Nat) (path : String) (f : FragRef) (s : St) (h : parseFromPath E n m path {} = (.ok f, s)) (de : DomainExt)
    (hd : de ∈ s.domainExts) : ∃ a, de.definedBy = some a ∧ getReferenced s Lib.annotationTypes de.name de.location = .ok a ∧ Concrete s a := by
  obtain ⟨hw, _⟩ := Load.parseFromPath_ok (K := Load.anyCtl) trivial (Load.anyRegs E) (fun _ _ => trivial) (fun _ _ _ => trivial) trivial h
  obtain ⟨i, hi⟩ := List.mem_iff_getElem?.1 hd
  obtain ⟨a, h1, h2⟩ := hw.exts i de hi
  obtain ⟨b, hb⟩ := Load.isBase_base (Load.getReferenced_isBase hw.w (fun l hl => hl.annotationTypes) h2)
  exact ⟨a, h1, h2, b, hb, hw.typed hb⟩

/-- The hypotheses are met: annotations of the file itself and of a library it uses. -/
example : exResult (parseFromPath (exFilesEnv exFiles) 20 20 "a.raml" {}) = some (.library 0) ∧
    (parseFromPath (exFilesEnv exFiles) 20 20 "a.raml" {}).2.domainExts.map (fun d => (d.name, d.location, d.definedBy)) =
      [("note", "a.raml", some 0), ("b.mark", "a.raml", some 5)] :=
  ⟨by decide +kernel, by decide +kernel⟩

end GoRaml
