import Verif.Lemmas.Files
import Verif.Spec.Files
import Verif.Props.Load

/-!
# Other files do not matter (C68)
-/

namespace GoRaml.Props

open GoRaml GoRaml.Spec

/-- The end of a parse does not look at files. -/
theorem finishParse_files (E : Env) (files : String → Option String) (ord : Orders) (n : Nat) (o : ParseOpts) :
    finishParse { E with file := files } ord n o = finishParse E ord n o := rfl

theorem more_of {E : Env} {files : String → Option String} (hf : FilesOf E.file files) : Files.More true E files := by
  intro p h
  cases hp : E.file p with
  | some t => rw [hf p t hp]
  | none => rw [hp] at h; obtain ⟨_, h⟩ := h; cases h

/-- C68: a parse that succeeds goes the same way, to the same model, if there are more files. -/
theorem c68_more_files {E : Env} {files : String → Option String} {ord : Orders} {n m : Nat} {path : String} {o : ParseOpts} {s s' : St} {f : FragRef}
    (hf : FilesOf E.file files) (hp : parseWith E ord n m path o s = (.ok f, s')) :
    parseWith { E with file := files } ord n m path o s = (.ok f, s') := by
  have h : Files.Sim true (parseWith E ord n m path o) (parseWith { E with file := files } ord n m path o) s :=
    (Files.parseFromPath_sim (more_of hf) (Nat.le_refl n) (Nat.le_refl m) path s).bind fun _ _ => Files.Sim.rfl
  rw [h ⟨f, by rw [hp]⟩, hp]

/-- C68: the same for a text that is given directly. -/
theorem c68_more_files_string {E : Env} {files : String → Option String} {ord : Orders} {n m : Nat} {content fileName baseDir : String} {o : ParseOpts}
    {s s' : St} {f : FragRef} (hf : FilesOf E.file files) (hp : parseStringWith E ord n m content fileName baseDir o s = (.ok f, s')) :
    parseStringWith { E with file := files } ord n m content fileName baseDir o s = (.ok f, s') := by
  have h : Files.Sim true (parseStringWith E ord n m content fileName baseDir o) (parseStringWith { E with file := files } ord n m content fileName baseDir o) s :=
    .ite ((Files.parseFragment_sim (more_of hf) (Nat.le_refl n) (Nat.le_refl m) _ _ s).bind fun _ _ => Files.Sim.rfl) .rfl
  rw [h ⟨f, by rw [hp]⟩, hp]

/-- C68: a text that can be parsed without being in a file is parsed to the same model from the file, when it is saved. -/
theorem c68_string_like_file {E : Env} {files : String → Option String} {ord : Orders} {n m : Nat} {content fileName baseDir : String} {o : ParseOpts}
    {s s' : St} {f : FragRef} (hf : FilesOf E.file files) (hs : files (E.joinDir (baseDir ++ "/") fileName) = some content)
    (hp : parseStringWith E ord n m content fileName baseDir o s = (.ok f, s')) :
    parseWith { E with file := files } ord n m (E.joinDir (baseDir ++ "/") fileName) o s = (.ok f, s') := by
  have h := c68_more_files_string hf hp
  have ha : isAbsPath baseDir = true := by
    cases ha : isAbsPath baseDir with
    | true => rfl
    | false => rw [parseStringWith, ha] at hp; cases hp
  rw [parseStringWith, if_pos ha] at h
  unfold parseWith parseFromPath
  simp only [hs]
  exact h

/-- C68: conversely, a saved text that parses from its file parses directly, to the same model. -/
theorem c68_file_like_string {E : Env} {ord : Orders} {n m : Nat} {content fileName baseDir : String} {o : ParseOpts} {s : St} (ha : isAbsPath baseDir = true)
    (hs : E.file (E.joinDir (baseDir ++ "/") fileName) = some content) :
    parseStringWith E ord n m content fileName baseDir o s = parseWith E ord n m (E.joinDir (baseDir ++ "/") fileName) o s := by
  rw [parseStringWith, if_pos ha]
  unfold parseWith parseFromPath
  simp only [hs]

/-- The bounds of the model do not matter: a parse that comes to an end with some bounds does so, in the same way, with all larger ones. -/
theorem c68_bounds {E : Env} {n n' m m' : Nat} {path : String} {s : St} (hn : n ≤ n') (hm : m ≤ m') (hp : (parseFromPath E n m path s).1 ≠ .diverge) :
    parseFromPath E n' m' path s = parseFromPath E n m path s :=
  Files.parseFromPath_sim (mode := false) (E := E) (f := E.file) (fun _ => Files.Le.rfl) hn hm path s hp

/-- The files of the example, without the first. -/
def exUnsaved : Env := exFilesEnv (exFiles.filter fun f => f.1 ≠ "a.raml")

/-- The example with all texts known to the YAML parser. -/
def exUnsavedEnv : Env := { exFilesEnv exFiles with file := exUnsaved.file }

/-- Two libraries that use each other: the first one is not saved yet, and the second one refers back to it. -/
example : exUnsavedEnv.file "a.raml" = none ∧ FilesOf exUnsavedEnv.file (exFilesEnv exFiles).file ∧
    exResult (parseStringWith exUnsavedEnv {} 20 20 "#%RAML 1.0 Library\na" "a.raml" "/" {} {}) = some (.library 0) := by
  refine ⟨by decide +kernel, ?_, by decide +kernel⟩
  intro p t h
  show ((exFiles.find? (·.1 = p)).map (·.2.1)) = some t
  have h' : (((exFiles.filter fun f => f.1 ≠ "a.raml").find? (·.1 = p)).map (·.2.1)) = some t := h
  rw [List.find?_filter] at h'
  by_cases hp : p = "a.raml"
  · subst hp
    revert h'
    rw [List.find?_eq_none.2]
    · exact fun h => by cases h
    · intro x _
      simp
  · rw [← h']
    congr 2
    funext x
    by_cases hx : x.1 = p
    · simp [hx, hp]
    · simp [hx]

/-- A library whose text refers to itself as a value. -/
def exSelfValue : List (String × String × YNode) := [
  ("a.raml", "#%RAML 1.0 Library\nnew", exDoc [("types", exMap [("T", exMap [("type", .str "string"), ("default", .mk .scalar "!include" "a.raml" [])])])])]

/-- Without the condition that the text can be parsed without being in a file, the two can differ: an `!include` of the path as a value reads the
text that was saved last. -/
theorem c68_stale_include : ∃ (E : Env) (content fileName : String) (files : String → Option String), files (E.joinDir "//" fileName) = some content ∧
    (∀ p, p ≠ E.joinDir "//" fileName → files p = E.file p) ∧
    (exResult (parseStringWith E {} 20 20 content fileName "/" {} {})).isSome = true ∧
    (exResult (parseWith { E with file := files } {} 20 20 (E.joinDir "//" fileName) {} {})).isSome = true ∧
    (parseStringWith E {} 20 20 content fileName "/" {} {}).2.bases.map (·.default) ≠
      (parseWith { E with file := files } {} 20 20 (E.joinDir "//" fileName) {} {}).2.bases.map (·.default) := by
  refine ⟨{ exFilesEnv exSelfValue with file := fun p => if p = "a.raml" then some "old" else none }, "#%RAML 1.0 Library\nnew", "a.raml",
    fun p => if p = "a.raml" then some "#%RAML 1.0 Library\nnew" else none, by decide +kernel, ?_, by decide +kernel, by decide +kernel, ?_⟩
  · intro p hp
    have hp' : p ≠ "a.raml" := hp
    simp [hp']
  · intro h
    have h2 := congrArg List.head? h
    have h3 := congrArg (fun o => match o with | some (some (.str t)) => t.length | _ => 0) h2
    revert h3
    decide +kernel

end GoRaml.Props
