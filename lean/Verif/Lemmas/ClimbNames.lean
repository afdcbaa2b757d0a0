import Verif.Lemmas.ClimbUnwrap
import Verif.Lemmas.WholeAll

/-!
# Where the names of types lead during unwrapping (C82)
-/

namespace GoRaml.Climb

open GoRaml GoRaml.Spec

/-- The entries of the two sections. -/
def Led (s0 : St) (m0 m : OMap Addr) : Prop := ∀ e ∈ m, ∃ a, (e.1, a) ∈ m0 ∧ Got s0 a e.2

/-- The names lead to what they led to at first, or to an ancestor of it that is of type `any`. -/
def L (s0 s : St) : Prop := ∀ (i : Nat) (l : Lib), s.libs[i]? = some l → ∃ l0 : Lib, s0.libs[i]? = some l0 ∧ ∀ c : Sect, Led s0 (c.of l0) (c.of l)

section
variable {s0 s : St}

theorem unwrapType_l {n : Nat} {c : Sect} {i : Nat} {loc : String} {ka : String × Addr} {s' : St} (j : J s0 s) (h : L s0 s)
    (hka : ∀ l0, s0.libs[i]? = some l0 → ∃ a, (ka.1, a) ∈ c.of l0 ∧ Got s0 a ka.2) (e : unwrapType n c i loc ka s = (.ok (), s')) : L s0 s' := by
  unfold unwrapType at e
  obtain ⟨us, s1, e1, ea⟩ := M.bind_ok.1 e
  clear e
  obtain ⟨_, s2, e2, eb⟩ := M.bind_ok.1 ea
  clear ea
  obtain ⟨u, s3, e3, ec⟩ := M.bind_ok.1 eb
  clear eb
  obtain ⟨rfl, _⟩ := getBase_ok e3
  obtain ⟨k1, q1⟩ := unwrap_after n _ _ _ _ j e1
  have hl3 : s'.libs = s3.libs := by cases c <;> (cases ec; rfl)
  intro i' l' hl'
  rw [hl3] at hl'
  cases e2
  simp only [List.getElem?_modify] at hl'
  rw [k1.2.libs] at hl'
  cases hl : s.libs[i']? with
  | none => rw [hl] at hl'; simp at hl'
  | some l =>
    rw [hl] at hl'
    obtain ⟨l0, h0, h1⟩ := h i' l hl
    refine ⟨l0, h0, ?_⟩
    by_cases hii : i = i'
    · subst hii
      simp at hl'
      obtain ⟨a, p1, p2⟩ := hka l0 h0
      have set : Led s0 (c.of l0) (OMap.set (c.of l) ka.1 us) := fun e he => by
        rcases Whole.mem_omap_set he with he | rfl
        · exact h1 c e he
        · exact ⟨a, p1, p2.trans q1⟩
      subst hl'
      intro c'
      cases c <;> cases c' <;> first | exact set | exact h1 .types | exact h1 .annotationTypes
    · simp [hii] at hl'
      subst hl'
      exact h1

theorem tryEach_mem {α : Type} {P : St → Prop} {f : α → M St Unit} : ∀ (l : List α) {s s' : St}, (∀ x ∈ l, ∀ s s', P s → f x s = (.ok (), s') → P s') → P s →
    M.tryEach f l s = (.ok (), s') → P s'
  | [], _, _, _, j, e => by cases e; exact j
  | x :: l, s, s', h, j, e => by
    obtain ⟨s1, e1, e2⟩ := Kin.tryEach_ok e
    exact tryEach_mem l (fun y hy => h y (List.mem_cons_of_mem _ hy)) (h x List.mem_cons_self s s1 j e1) e2

theorem unwrapFragment_l {n : Nat} {f : FragRef} {s' : St} (j : J s0 s ∧ L s0 s) (e : unwrapFragment n f s = (.ok (), s')) : J s0 s' ∧ L s0 s' := by
  refine ⟨unwrapFragment_j j.1 e, ?_⟩
  cases f with
  | library i =>
    cases hl : s.libs[i]? with
    | none => simp only [unwrapFragment, hl] at e; cases e
    | some l =>
      simp only [unwrapFragment, hl] at e
      replace e : M.tryEach (fun c => unwrapTypes n c i l) [.annotationTypes, .types] s = (.ok (), s') := e
      obtain ⟨l0, h0, h1⟩ := j.2 i l hl
      refine (tryEach_mem (P := fun s => J s0 s ∧ L s0 s) _ (fun c _ s s' j e => tryEach_mem (P := fun s => J s0 s ∧ L s0 s) _ (fun ka hka s s' j e =>
        ⟨unwrapType_j j.1 e, unwrapType_l j.1 j.2 (fun l0' h0' => ?_) e⟩) j e) j e).2
      rw [h0] at h0'; cases h0'
      exact h1 c ka hka
  | dataType i =>
    have hlibs : s'.libs = s.libs := by
      cases hd : s.dts[i]? with
      | none => simp only [unwrapFragment, hd] at e; cases e
      | some d =>
        simp only [unwrapFragment, hd] at e
        unfold unwrapDataType at e
        cases ha : d.shape with
        | none => rw [ha] at e; cases e
        | some a =>
          rw [ha] at e
          obtain ⟨us, s1, e1, ea⟩ := M.bind_ok.1 e
          clear e
          obtain ⟨_, s2, e2, eb⟩ := M.bind_ok.1 ea
          clear ea
          obtain ⟨u, s3, e3, ec⟩ := M.bind_ok.1 eb
          clear eb
          obtain ⟨rfl, _⟩ := getBase_ok e3
          have := (unwrap_after n _ _ _ _ j.1 e1).1.2.libs
          cases e2
          cases ec
          exact this
    unfold L
    rw [hlibs]
    exact j.2
  | namedExample i => cases e; exact j.2

theorem unwrapFragments_l {n : Nat} {fs : List FragRef} {s' : St} (j : J s0 s) (h : L s0 s) (e : unwrapFragments n fs s = (.ok (), s')) : L s0 s' :=
  (tryEach_mem (P := fun s => J s0 s ∧ L s0 s) _ (fun _ _ _ _ j e => unwrapFragment_l j e) ⟨j, h⟩ e).2

end

end GoRaml.Climb
