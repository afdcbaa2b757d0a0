import Verif.Model.Go
import Mathlib.Tactic.Common

/-!
# Ordered maps
-/

namespace GoRaml.OMap

variable {α : Type}

theorem get_set (m : OMap α) (k k' : String) (v : α) :
    OMap.get (OMap.set m k v) k' = if k' = k then some v else OMap.get m k' := by
  induction m with
  | nil =>
    simp only [OMap.set, OMap.get]
    by_cases h : k' = k
    · simp [h]
    · rw [if_neg (Ne.symm h), if_neg h]
  | cons e m ih =>
    obtain ⟨k1, v1⟩ := e
    simp only [OMap.set]
    by_cases h1 : k1 = k
    · subst h1
      rw [if_pos rfl]
      simp only [OMap.get]
      by_cases h : k' = k1
      · simp [h]
      · rw [if_neg (Ne.symm h), if_neg h, if_neg (Ne.symm h)]
    · rw [if_neg h1]
      simp only [OMap.get]
      by_cases h2 : k1 = k'
      · subst h2; simp [h1]
      · rw [if_neg h2, if_neg h2, ih]

end GoRaml.OMap
