import Verif.Model.Monad

namespace GoRaml.M

variable {σ α β : Type}

@[simp] theorem ret_run (a : α) (s : σ) : (ret a : M σ α) s = (.ok a, s) := rfl

theorem bind_ok {m : M σ α} {f : α → M σ β} {s s'' : σ} {b : β} :
    bind m f s = (.ok b, s'') ↔ ∃ a s', m s = (.ok a, s') ∧ f a s' = (.ok b, s'') := by
  unfold bind
  constructor
  · intro h
    split at h
    · rename_i a s' heq; exact ⟨a, s', heq, h⟩
    all_goals simp at h
  · rintro ⟨a, s', h1, h2⟩
    rw [h1]; exact h2

theorem bind_of_ok {m : M σ α} {f : α → M σ β} {s s' : σ} {a : α} (h : m s = (.ok a, s')) :
    bind m f s = f a s' := by
  unfold bind; rw [h]

theorem ret_ok {a b : α} {s s' : σ} : (ret a : M σ α) s = (.ok b, s') ↔ a = b ∧ s = s' := by
  simp [ret]

theorem get_ok {s s' t : σ} : (get : M σ σ) s = (.ok t, s') ↔ t = s ∧ s' = s := by
  simp [get]; constructor <;> rintro ⟨rfl, rfl⟩ <;> simp

theorem get_bind (f : σ → M σ β) (s : σ) : bind get f s = f s s := rfl

theorem lift_ok {o : Out α} {a : α} {s s' : σ} : (lift o : M σ α) s = (.ok a, s') ↔ o = .ok a ∧ s = s' := by
  simp [lift]

theorem run_ok {m : M σ α} {s : σ} {a : α} (h : (m s).1 = .ok a) : m s = (.ok a, (m s).2) := Prod.ext h rfl

end GoRaml.M
