import Verif.Lemmas.Again
import Verif.Lemmas.LinesResolve

/-!
# What one or several successful calls ensure
-/

namespace GoRaml.Load

open GoRaml GoRaml.Spec

variable {E : Env} {s s' : St}

/-- What the unwrapping of a model relies on. -/
structure Ready (E : Env) (s : St) : Prop where
  held : Read.Held E s
  own : Apart.I s
  fine : Lines.Fine s

theorem ready_new : Ready E {} := ⟨Read.held_new, Apart.init_own, Lines.fine_empty⟩

theorem fine_again (hs : Ready E s) {n m : Nat} {path : String} {f : FragRef} (hg : getFragment s path = none) (h : parseFromPath E n m path s = (.ok f, s')) : Lines.Fine s' := by
  unfold parseFromPath at h
  cases hfile : E.file path with
  | none => rw [hfile] at h; cases h
  | some text =>
    rw [hfile] at h
    simp only [parseFragment] at h
    obtain ⟨f', s1, h1, h2⟩ := M.bind_ok.1 h
    obtain ⟨_, s2, h3, h4⟩ := M.bind_ok.1 h2
    obtain ⟨_, s3, h5, h6⟩ := M.bind_ok.1 h4
    cases h6
    have hw := hs.held.loaded.w
    have hS := specs (K := anyCtl) trivial (anyRegs E) n
    have hrun := decodeEntry_run hw trivial
      ((decodeLibrary_spec hS (anyRegs E) (fun _ _ => trivial) hfile hg hw trivial).post fun _ _ _ _ _ => trivial)
      ((decodeDataType_spec hS (anyRegs E) (fun _ _ => trivial) hfile hg hw trivial).post fun _ _ _ _ _ => trivial)
    unfold Run at hrun
    rw [h1] at hrun
    obtain ⟨hw1, _⟩ := hrun
    have k1 := Read.decodeEntry_again hs.held.tied hfile hg h1
    have hd := Lines.decodeEntry_does (E := E) (n := n) (text := text) (path := path) s fun _ h => by cases h
    rw [h1] at hd
    have hf1 : Lines.Fine s1 := hs.fine.grow hw hd k1.chg.slices fun i hi => by
      obtain ⟨t, ht⟩ := k1.chg.dts
      rw [← ht, List.getElem?_append_left hi]
    have k2 := Lines.resolveLoop_fine n m true s1 s2 hw1 k1.tied hf1 h3
    have k3 : Read.Linked s2 s' := Read.resolveExtLoop_linked _ _ _ _ h5
    obtain ⟨_, exts, rfl⟩ := k3
    exact k2.same rfl rfl rfl

theorem ready_again (hs : Ready E s) {n m : Nat} {path : String} {f : FragRef} (hg : getFragment s path = none) (h : parseFromPath E n m path s = (.ok f, s')) : Ready E s' := by
  refine ⟨(Read.held_again hs.held hg h).1, ?_, fine_again hs hg h⟩
  have k := Apart.parseFromPath_own (E := E) (n := n) (m := m) (path := path) hs.own
  unfold Apart.Own Tame.Tame at k
  have := k.1
  rw [h] at this
  exact this

/-- After a single call. -/
theorem ready_parsed {n m : Nat} {path : String} {f : FragRef} (h : parseFromPath E n m path {} = (.ok f, s)) : Ready E s :=
  ready_again ready_new (by simp [getFragment, OMap.get]) h

/-- After several. -/
theorem ready_successes (h : Successes E {} s) : Ready E s := by
  induction h with
  | none => exact ready_new
  | call _ hg he ih => exact ready_again ih hg he

end GoRaml.Load
