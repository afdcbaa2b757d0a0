import Verif.Model.Ids
import Mathlib.Data.List.Nodup
import Mathlib.Data.List.Range

/-!
# C42: shape IDs
-/

namespace GoRaml

theorem idRun_issued (sched : List Nat) : (idRun sched).issued.map Prod.snd =
    (List.range (idRun sched).issued.length).map (fun i => BitVec.ofNat 64 (i + 1)) ∧
    (idRun sched).counter = BitVec.ofNat 64 (idRun sched).issued.length ∧ (idRun sched).issued.length ≤ sched.length := by
  unfold idRun
  induction sched using List.reverseRecOn with
  | nil => simp
  | append_singleton sched c ih =>
    obtain ⟨h1, h2, h3⟩ := ih
    rw [List.foldl_append]
    simp only [List.foldl_cons, List.foldl_nil]
    generalize List.foldl idStep {} sched = s at h1 h2 h3
    unfold idStep
    simp only
    have hadd : s.counter + 1 = BitVec.ofNat 64 (s.issued.length + 1) := by
      rw [h2]; apply BitVec.eq_of_toNat_eq; simp
    split
    · simp only [List.map_append, List.map_cons, List.map_nil, List.length_append, List.length_singleton, List.range_succ, h1, hadd]
      exact ⟨trivial, trivial, by omega⟩
    · exact ⟨h1, h2, by simp; omega⟩
    · exact ⟨h1, h2, by simp; omega⟩

/-- C42: under every interleaving of any number of callers, the IDs handed out are pairwise different (up to 2^64 of them). -/
theorem c42_ids_distinct (sched : List Nat) (h : (idRun sched).issued.length ≤ 2 ^ 64) :
    ((idRun sched).issued.map Prod.snd).Nodup := by
  obtain ⟨h1, _, _⟩ := idRun_issued sched
  rw [h1]
  apply List.Nodup.map_on _ List.nodup_range
  intro i hi j hj he
  rw [List.mem_range] at hi hj
  have := congrArg BitVec.toNat he
  simp only [BitVec.toNat_ofNat] at this
  rcases Nat.lt_or_ge (i + 1) (2 ^ 64) with h1 | h1 <;> rcases Nat.lt_or_ge (j + 1) (2 ^ 64) with h2 | h2
  · rw [Nat.mod_eq_of_lt h1, Nat.mod_eq_of_lt h2] at this; omega
  · have : j + 1 = 2 ^ 64 := by omega
    simp_all [Nat.mod_eq_of_lt h1]
  · have : i + 1 = 2 ^ 64 := by omega
    simp_all [Nat.mod_eq_of_lt h2]
  · omega

/-- C42: below 2^63 IDs, every ID handed out is positive and larger than all before it; so each caller sees increasing IDs. -/
theorem c42_ids_increasing (sched : List Nat) (h : (idRun sched).issued.length < 2 ^ 63) :
    ((idRun sched).issued.map (fun p => p.2.toInt)).Pairwise (· < ·) ∧ (∀ p ∈ (idRun sched).issued, 0 < p.2.toInt) ∧
    ∀ c, (((idRun sched).issued.filter (fun p => p.1 = c)).map (fun p => p.2.toInt)).Pairwise (· < ·) := by
  obtain ⟨h1, _, _⟩ := idRun_issued sched
  have hmap : (idRun sched).issued.map (fun p => p.2.toInt) =
      (List.range (idRun sched).issued.length).map (fun (i : Nat) => ((i : Int) + 1)) := by
    have : (idRun sched).issued.map (fun p => p.2.toInt) = ((idRun sched).issued.map Prod.snd).map BitVec.toInt := by
      rw [List.map_map]; rfl
    rw [this, h1, List.map_map]
    apply List.map_congr_left
    intro i hi
    rw [List.mem_range] at hi
    have : i + 1 < 2 ^ 63 := by omega
    simp only [Function.comp]
    rw [BitVec.toInt_eq_toNat_of_lt (by rw [BitVec.toNat_ofNat, Nat.mod_eq_of_lt (by omega)]; omega), BitVec.toNat_ofNat,
      Nat.mod_eq_of_lt (by omega)]
    push_cast
    rfl
  have hp : ((idRun sched).issued.map (fun p => p.2.toInt)).Pairwise (· < ·) := by
    rw [hmap, List.pairwise_map]
    refine List.Pairwise.imp ?_ List.pairwise_lt_range
    intro a b hab
    show (a : Int) + 1 < b + 1
    omega
  refine ⟨hp, ?_, ?_⟩
  · intro p hp'
    have : p.2.toInt ∈ (idRun sched).issued.map (fun p => p.2.toInt) := List.mem_map.2 ⟨p, hp', rfl⟩
    rw [hmap, List.mem_map] at this
    obtain ⟨i, _, he⟩ := this
    rw [← he]
    omega
  · intro c
    exact hp.sublist (List.Sublist.map _ List.filter_sublist)

/-- C42: callers that do not overlap lose nothing: the shapes registered are those made, in order. -/
theorem c42_sequential_shapes (cs : List Nat) : let s := idRun (cs.flatMap fun c => [c, c, c])
    s.shapes = s.issued.map Prod.snd ∧ s.issued.map Prod.fst = cs := by
  suffices h : let s := idRun (cs.flatMap fun c => [c, c, c])
      s.shapes = s.issued.map Prod.snd ∧ s.issued.map Prod.fst = cs ∧ ∀ c, s.pcs c = .idle from ⟨h.1, h.2.1⟩
  unfold idRun
  induction cs using List.reverseRecOn with
  | nil => exact ⟨rfl, rfl, fun _ => rfl⟩
  | append_singleton cs c ih =>
    obtain ⟨h1, h2, h3⟩ := ih
    simp only [List.flatMap_append, List.foldl_append, List.flatMap_cons, List.flatMap_nil, List.append_nil, List.foldl_cons, List.foldl_nil]
    generalize List.foldl idStep {} (cs.flatMap fun c => [c, c, c]) = s at h1 h2 h3
    simp only [idStep, h3, if_true]
    refine ⟨by rw [h1]; simp, by simp [h2], fun d => ?_⟩
    by_cases hd : d = c
    · simp [hd]
    · simp [hd]

/-- C42, the limit: making shapes is not safe for concurrent callers, although the IDs are: with this interleaving of two
callers, both finish, their IDs differ, and only one shape is registered. -/
theorem c42_shape_lost : let s := idRun [0, 1, 0, 1, 0, 1]
    s.issued = [(0, 1), (1, 2)] ∧ s.pcs 0 = .idle ∧ s.pcs 1 = .idle ∧ s.shapes = [2] := by decide +kernel

/-- Example: three callers, interleaved. -/
example : (idRun [0, 1, 2, 0, 0, 0, 1, 1]).issued = [(0, 1), (1, 2), (2, 3), (0, 4)] := by decide +kernel

end GoRaml
