import Verif.Lemmas.Terminate

/-!
# Computations that come to a verdict when the fuel is large enough
-/

namespace GoRaml

/-- For all large enough fuel the outcome is `ok` if `P` holds and an error if not. -/
def Settles (f : Nat → Out Unit) (P : Prop) : Prop := ∃ n, ∀ k, n ≤ k → Decides (f k) P

theorem Settles.congr {f : Nat → Out Unit} {P Q : Prop} (h : Settles f P) (hpq : P ↔ Q) : Settles f Q := by
  obtain ⟨n, hn⟩ := h
  exact ⟨n, fun k hk => (hn k hk).congr hpq⟩

theorem Settles.const {o : Out Unit} {P : Prop} (h : Decides o P) : Settles (fun _ => o) P := ⟨0, fun _ _ => h⟩

theorem Settles.ok : Settles (fun _ => .ok ()) True := .const (Or.inl ⟨rfl, trivial⟩)

theorem decides_bind {o : Out Unit} {f : Unit → Out Unit} {P Q : Prop} (ho : Decides o P) (hf : P → Decides (f ()) Q) :
    Decides (o.bind f) (P ∧ Q) := by
  rcases ho with ⟨rfl, hp⟩ | ⟨⟨m, rfl⟩, hp⟩
  · simpa [Out.bind, hp] using hf hp
  · exact Or.inr ⟨⟨m, rfl⟩, fun h => hp h.1⟩

theorem Settles.bind {f g : Nat → Out Unit} {P Q : Prop} (hf : Settles f P) (hg : P → Settles g Q) :
    Settles (fun k => (f k).bind fun _ => g k) (P ∧ Q) := by
  obtain ⟨n, hn⟩ := hf
  by_cases hp : P
  · obtain ⟨m, hm⟩ := hg hp
    exact ⟨max n m, fun k hk => decides_bind (hn k (by omega)) fun _ => hm k (by omega)⟩
  · exact ⟨n, fun k hk => decides_bind (hn k hk) fun h => absurd h hp⟩

theorem Settles.forEach {α : Type} {f : Nat → α → Out Unit} {P : α → Prop} {l : List α}
    (h : ∀ x ∈ l, Settles (fun k => f k x) (P x)) : Settles (fun k => Out.forEach (f k) l) (∀ x ∈ l, P x) := by
  induction l with
  | nil => exact Settles.ok.congr (by simp)
  | cons x l ih =>
    have := Settles.bind (h x (by simp)) fun _ => ih fun y hy => h y (by simp [hy])
    exact this.congr (by simp)

/-- One more unit of fuel outside. -/
theorem Settles.succ {f : Nat → Out Unit} {P : Prop} (h : Settles (fun k => f (k + 1)) P) : Settles f P := by
  obtain ⟨n, hn⟩ := h
  refine ⟨n + 1, fun k hk => ?_⟩
  obtain ⟨k, rfl⟩ : ∃ j, k = j + 1 := ⟨k - 1, by omega⟩
  exact hn k (by omega)

theorem Settles.ok_iff {f : Nat → Out Unit} {P : Prop} (h : Settles f P) (hm : ∀ j k, j ≤ k → f j ≠ .diverge → f k = f j) :
    (∃ n, f n = .ok ()) ↔ P := by
  obtain ⟨n, hn⟩ := h
  constructor
  · rintro ⟨j, hj⟩
    have h1 := hm j (max n j) (by omega) (by simp [hj])
    rw [hj] at h1
    exact (hn _ (by omega)).ok_iff.1 h1
  · intro hp; exact ⟨n, (hn n le_rfl).ok_iff.2 hp⟩

end GoRaml
