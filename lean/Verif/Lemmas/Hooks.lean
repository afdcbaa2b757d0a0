import Verif.Spec.Hooks
import Verif.Lemmas.OMap

/-!
# Lemmas on hooks (C40, C41)
-/

namespace GoRaml.HookSt

open GoRaml Spec

/-- The slice `x` may be stored for `key`: it lies within its array, and no other key has that array. -/
structure Own (s : HookSt) (key : String) (x : HookSlice) : Prop where
  arr : x.arr < s.arrs.length
  len : x.len ≤ (s.arr x.arr).length
  sep : ∀ k', k' ≠ key → ∀ x', OMap.get s.keys k' = some x' → x'.arr ≠ x.arr

/-- The state represents the lists. -/
structure Rep (s : HookSt) (m : HookLists) : Prop where
  own : ∀ k x, OMap.get s.keys k = some x → Own s k x ∧ s.elems x = m k
  none : ∀ k, OMap.get s.keys k = .none → m k = []

/-- Arrays of keys other than `key` are as before. -/
structure Frame (s s' : HookSt) (key : String) : Prop where
  keys : s'.keys = s.keys
  grow : s.arrs.length ≤ s'.arrs.length
  same : ∀ k', k' ≠ key → ∀ x, OMap.get s.keys k' = some x → x.arr < s.arrs.length → s'.arr x.arr = s.arr x.arr

theorem Frame.refl (s : HookSt) (key : String) : Frame s s key := ⟨rfl, Nat.le_refl _, fun _ _ _ _ _ => rfl⟩

theorem Frame.trans {s s' s'' : HookSt} {key : String} (f : Frame s s' key) (g : Frame s' s'' key) : Frame s s'' key :=
  ⟨g.keys.trans f.keys, Nat.le_trans f.grow g.grow, fun k' hk x hx hl =>
    (g.same k' hk x (by rw [f.keys]; exact hx) (Nat.lt_of_lt_of_le hl f.grow)).trans (f.same k' hk x hx hl)⟩

theorem arr_alloc (s : HookSt) (l : List (Option Hook)) : (s.alloc l).2.arr s.arrs.length = l := by
  simp [alloc, arr, List.getD]

theorem frame_alloc (s : HookSt) (l : List (Option Hook)) (key : String) : Frame s (s.alloc l).2 key :=
  ⟨rfl, by simp [alloc], fun _ _ x _ hl => by simp [alloc, arr, List.getD, List.getElem?_append_left hl]⟩

theorem own_alloc {s : HookSt} {m : HookLists} (r : Rep s m) (l : List (Option Hook)) (key : String) {n : Nat} (hn : n ≤ l.length) :
    Own (s.alloc l).2 key ⟨(s.alloc l).1, n⟩ :=
  ⟨by simp [alloc], by rw [show (s.alloc l).1 = s.arrs.length from rfl, arr_alloc]; exact hn, fun k' _ x' hx' => by
    have := (r.own k' x' hx').1.arr
    show x'.arr ≠ s.arrs.length
    omega⟩

theorem getHooks_spec {s : HookSt} {m : HookLists} (r : Rep s m) (key : String) {x : HookSlice} {s1 : HookSt}
    (h : s.getHooks key = (x, s1)) : Frame s s1 key ∧ Own s1 key x ∧ s1.elems x = m key ∧ Rep s1 m := by
  unfold getHooks at h
  cases hg : OMap.get s.keys key with
  | some y =>
    rw [hg] at h; cases h
    exact ⟨Frame.refl _ _, (r.own key x hg).1, (r.own key x hg).2, r⟩
  | none =>
    rw [hg] at h
    cases h
    have fr := frame_alloc s [] key
    refine ⟨fr, own_alloc r [] key (Nat.le_refl 0), ?_, ?_, ?_⟩
    · rw [r.none key hg]; simp [elems]
    · intro k x hx
      have hx : OMap.get s.keys k = some x := hx
      have hk : k ≠ key := by rintro rfl; rw [hg] at hx; cases hx
      obtain ⟨o, e⟩ := r.own k x hx
      have hs := fr.same k hk x hx o.arr
      refine ⟨⟨Nat.lt_of_lt_of_le o.arr fr.grow, by show x.len ≤ ((s.alloc []).2.arr x.arr).length; rw [hs]; exact o.len, o.sep⟩, ?_⟩
      show ((s.alloc []).2.arr x.arr).take x.len = m k
      rw [hs]; exact e
    · exact fun k hk => r.none k hk

theorem append_spec {s : HookSt} {key : String} {x : HookSlice} {v : List (Option Hook)} {n : Nat} {y : HookSlice} {s1 : HookSt}
    (o : Own s key x) (ho : ∀ k x', OMap.get s.keys k = some x' → x'.arr < s.arrs.length) (h : append n s x v = (y, s1)) :
    Frame s s1 key ∧ Own s1 key y ∧ s1.elems y = s.elems x ++ v := by
  unfold append at h
  simp only at h
  split at h
  · rename_i hle
    cases h
    have harr : ∀ i, (s.put x.arr ((s.arr x.arr).take x.len ++ v ++ (s.arr x.arr).drop (x.len + v.length))).arr i =
        if i = x.arr then (s.arr x.arr).take x.len ++ v ++ (s.arr x.arr).drop (x.len + v.length) else s.arr i := by
      intro i
      unfold put arr
      simp only [List.getD_eq_getElem?_getD, List.getElem?_set]
      by_cases hi : i = x.arr
      · subst hi; simp [o.arr]
      · rw [if_neg (Ne.symm hi), if_neg hi]
    refine ⟨⟨rfl, by simp [put], fun k' hk x' hx' _ => by rw [harr, if_neg (o.sep k' hk x' hx')]⟩,
      ⟨by simpa [put] using o.arr, ?_, o.sep⟩, ?_⟩
    · rw [harr, if_pos rfl]
      simp only [List.length_append, List.length_take, List.length_drop]
      omega
    · unfold elems
      simp only [harr, if_true]
      rw [List.take_append_of_le_length (by simp; have := o.len; omega), List.take_of_length_le (by simp; omega)]
  · cases h
    refine ⟨frame_alloc s _ key, ⟨by simp [alloc], ?_, ?_⟩, ?_⟩
    · rw [show (s.alloc _).1 = s.arrs.length from rfl, arr_alloc]
      simp only [List.length_append, List.length_take, List.length_replicate]
      have := o.len
      omega
    · intro k' _ x' hx'
      have := ho k' x' hx'
      show x'.arr ≠ s.arrs.length
      omega
    · unfold elems
      simp only
      rw [show (s.alloc _).1 = s.arrs.length from rfl, arr_alloc,
        List.take_append_of_le_length (by simp; have := o.len; omega), List.take_of_length_le (by simp; omega)]

/-- Storing an owned slice for its key. -/
theorem Rep.store {s s1 : HookSt} {m m' : HookLists} {key : String} {y : HookSlice} (r : Rep s m) (f : Frame s s1 key)
    (o : Own s1 key y) (he : s1.elems y = m' key) (hm : ∀ k, k ≠ key → m' k = m k) : Rep (s1.setHooks key y) m' := by
  have hkeys : ∀ k, OMap.get (s1.setHooks key y).keys k = if k = key then some y else OMap.get s.keys k := by
    intro k
    unfold setHooks
    rw [OMap.get_set, f.keys]
  constructor
  · intro k x hx
    rw [hkeys] at hx
    by_cases hk : k = key
    · subst hk
      rw [if_pos rfl] at hx; cases hx
      refine ⟨⟨o.arr, o.len, fun k' hk' x' hx' => ?_⟩, he⟩
      rw [hkeys, if_neg hk'] at hx'
      exact o.sep k' hk' x' (by rw [f.keys]; exact hx')
    · rw [if_neg hk] at hx
      obtain ⟨ox, ex⟩ := r.own k x hx
      have hs := f.same k hk x hx ox.arr
      refine ⟨⟨Nat.lt_of_lt_of_le ox.arr f.grow, by show x.len ≤ (s1.arr x.arr).length; rw [hs]; exact ox.len, fun k' hk' x' hx' => ?_⟩, ?_⟩
      · rw [hkeys] at hx'
        by_cases hkk : k' = key
        · subst hkk
          rw [if_pos rfl] at hx'; cases hx'
          exact fun e => o.sep k hk x (by rw [f.keys]; exact hx) e.symm
        · rw [if_neg hkk] at hx'
          exact ox.sep k' hk' x' hx'
      · rw [hm k hk]
        show (s1.arr x.arr).take x.len = m k
        rw [hs]; exact ex
  · intro k hk
    rw [hkeys] at hk
    by_cases hkk : k = key
    · rw [if_pos hkk] at hk; cases hk
    · rw [if_neg hkk] at hk
      rw [hm k hkk]; exact r.none k hk

theorem Rep.bounds {s : HookSt} {m : HookLists} (r : Rep s m) : ∀ k x', OMap.get s.keys k = some x' → x'.arr < s.arrs.length :=
  fun k x' h => (r.own k x' h).1.arr

theorem removeFirst_findIdx (h : Option Hook) (l : List (Option Hook)) :
    removeFirst h l = match l.findIdx? (fun g => decide (codeOf g = codeOf h)) with
      | none => l
      | some i => l.take i ++ l.drop (i + 1) := by
  have hcode : ∀ g : Option Hook, codeOf g = g.map Hook.code := by rintro (_ | g) <;> rfl
  induction l with
  | nil => rfl
  | cons g l ih =>
    simp only [removeFirst, List.findIdx?_cons, hcode]
    by_cases hg : g.map Hook.code = h.map Hook.code
    · simp [hg]
    · simp only [hg, decide_false, if_false, Bool.false_eq_true]
      rw [ih]
      simp only [hcode]
      cases l.findIdx? (fun g => decide (g.map Hook.code = h.map Hook.code)) with
      | none => rfl
      | some i => rfl

theorem rep_run {s : HookSt} {m : HookLists} (r : Rep s m) (o : Op) : Rep (o.run s) (HookLists.apply m o) := by
  cases o with
  | append k h n =>
    unfold Op.run appendHook
    cases hg : s.getHooks k with
    | mk x s1 =>
      obtain ⟨f1, o1, e1, r1⟩ := getHooks_spec r k hg
      simp only
      cases ha : append n s1 x [h] with
      | mk y s2 =>
        obtain ⟨f2, o2, e2⟩ := append_spec o1 r1.bounds ha
        simp only [hg, ha]
        refine r.store (f1.trans f2) o2 ?_ ?_
        · rw [e2, e1]; simp [HookLists.apply]
        · intro k' hk'; simp [HookLists.apply, hk']
  | prepend k h n =>
    unfold Op.run prependHook
    cases hg : s.getHooks k with
    | mk x s1 =>
      obtain ⟨f1, o1, e1, r1⟩ := getHooks_spec r k hg
      simp only
      have f2 := frame_alloc s1 [h] k
      have o2 := own_alloc r1 [h] k (n := 1) (Nat.le_refl 1)
      have e2 : (s1.alloc [h]).2.elems ⟨(s1.alloc [h]).1, 1⟩ = [h] := by
        unfold elems; rw [show (s1.alloc [h]).1 = s1.arrs.length from rfl, arr_alloc]; rfl
      cases ha : append n (s1.alloc [h]).2 ⟨(s1.alloc [h]).1, 1⟩ (s1.elems x) with
      | mk y s2 =>
        obtain ⟨f3, o3, e3⟩ := append_spec o2 (fun k' x' hx' => by
          have := r1.bounds k' x' hx'
          simp only [alloc, List.length_append, List.length_singleton]
          omega) ha
        simp only [hg, ha]
        refine r.store ((f1.trans f2).trans f3) o3 ?_ ?_
        · rw [e3, e2, e1]; simp [HookLists.apply]
        · intro k' hk'; simp [HookLists.apply, hk']
  | remove k h =>
    unfold Op.run removeHook
    cases hg : s.getHooks k with
    | mk x s1 =>
      obtain ⟨f1, o1, e1, r1⟩ := getHooks_spec r k hg
      simp only
      have hrf := removeFirst_findIdx h (m k)
      simp only [hg, e1]
      cases hi : (m k).findIdx? (fun g => decide (codeOf g = codeOf h)) with
      | none =>
        rw [hi] at hrf
        refine r.store f1 o1 ?_ ?_
        · rw [e1]; simp [HookLists.apply, hrf]
        · intro k' hk'; simp [HookLists.apply, hk']
      | some i =>
        rw [hi] at hrf
        simp only
        have hil : i ≤ x.len := by
          obtain ⟨hlt, _⟩ := List.findIdx?_eq_some_iff_getElem.1 hi
          rw [← e1] at hlt
          unfold elems at hlt
          rw [List.length_take] at hlt
          omega
        have oi : Own s1 k ⟨x.arr, i⟩ := ⟨o1.arr, Nat.le_trans hil o1.len, o1.sep⟩
        cases ha : append 0 s1 ⟨x.arr, i⟩ ((m k).drop (i + 1)) with
        | mk y s2 =>
          obtain ⟨f2, o2, e2⟩ := append_spec oi r1.bounds ha
          refine r.store (f1.trans f2) o2 ?_ ?_
          · rw [e2]
            have : s1.elems ⟨x.arr, i⟩ = (m k).take i := by
              rw [← e1]; unfold elems; rw [List.take_take, Nat.min_eq_left hil]
            rw [this]
            simp [HookLists.apply, hrf]
          · intro k' hk'; simp [HookLists.apply, hk']
  | clear k =>
    unfold Op.run clearHooks
    simp only
    refine r.store (frame_alloc s [] k) (own_alloc r [] k (Nat.le_refl 0)) ?_ ?_
    · simp [HookLists.apply, elems]
    · intro k' hk'; simp [HookLists.apply, hk']

theorem rep_history (ops : List Op) {s : HookSt} {m : HookLists} (r : Rep s m) :
    Rep (ops.foldl (fun s o => o.run s) s) (ops.foldl HookLists.apply m) := by
  induction ops generalizing s m with
  | nil => exact r
  | cons o ops ih => exact ih (rep_run r o)

theorem rep_empty : Rep {} (fun _ => []) := ⟨fun _ _ h => by simp [OMap.get] at h, fun _ _ => rfl⟩

/-- The slice `x` of a run for `key` is not disturbed: slices stored now for `key` in the same array are at least as long. -/
structure Cov (s : HookSt) (key : String) (x : HookSlice) (l : List (Option Hook)) : Prop where
  arr : x.arr < s.arrs.length
  len : x.len ≤ (s.arr x.arr).length
  elems : s.elems x = l
  own : ∀ k y, OMap.get s.keys k = some y → y.arr = x.arr → k = key ∧ x.len ≤ y.len

/-- `append` to a slice that does not overlap the run. -/
theorem cov_append {s : HookSt} {key : String} {x z : HookSlice} {l v : List (Option Hook)} {n : Nat} {y : HookSlice} {s1 : HookSt}
    (c : Cov s key x l) (hz : z.arr = x.arr → x.len ≤ z.len) (hzl : z.len ≤ (s.arr z.arr).length) (h : append n s z v = (y, s1)) :
    Cov s1 key x l ∧ s1.keys = s.keys ∧ (y.arr = x.arr → z.arr = x.arr ∧ x.len ≤ y.len) := by
  unfold append at h
  simp only at h
  split at h
  · rename_i hle
    cases h
    have harr : ∀ i, z.arr < s.arrs.length → (s.put z.arr ((s.arr z.arr).take z.len ++ v ++ (s.arr z.arr).drop (z.len + v.length))).arr i =
        if i = z.arr then (s.arr z.arr).take z.len ++ v ++ (s.arr z.arr).drop (z.len + v.length) else s.arr i := by
      intro i hi'
      unfold put HookSt.arr
      simp only [List.getD_eq_getElem?_getD, List.getElem?_set]
      by_cases hi : i = z.arr
      · subst hi; simp [hi']
      · rw [if_neg (Ne.symm hi), if_neg hi]
    have harr' : z.arr ≠ x.arr → (s.put z.arr ((s.arr z.arr).take z.len ++ v ++ (s.arr z.arr).drop (z.len + v.length))).arr x.arr = s.arr x.arr := by
      intro hne
      unfold put HookSt.arr
      simp only [List.getD_eq_getElem?_getD, List.getElem?_set, if_neg hne]
    refine ⟨⟨by simpa [put] using c.arr, ?_, ?_, c.own⟩, rfl, fun he => ⟨he, ?_⟩⟩
    · by_cases he : z.arr = x.arr
      · rw [harr _ (by rw [he]; exact c.arr), if_pos he.symm]
        simp only [List.length_append, List.length_take, List.length_drop]
        have := hz he
        omega
      · rw [harr' he]; exact c.len
    · unfold HookSt.elems
      by_cases he : z.arr = x.arr
      · have hlen := hz he
        rw [harr _ (by rw [he]; exact c.arr), if_pos he.symm, List.append_assoc,
          List.take_append_of_le_length (by simp only [List.length_take]; omega), List.take_take, Nat.min_eq_left hlen, he]
        exact c.elems
      · rw [harr' he]; exact c.elems
    · show x.len ≤ z.len + v.length
      have := hz he
      omega
  · cases h
    have ha : (s.alloc ((s.arr z.arr).take z.len ++ v ++ List.replicate n none)).2.arr x.arr = s.arr x.arr := by
      simp [alloc, HookSt.arr, List.getD, List.getElem?_append_left c.arr]
    refine ⟨⟨?_, ?_, ?_, c.own⟩, rfl, fun he => ?_⟩
    · have := c.arr
      simp only [alloc, List.length_append, List.length_singleton]
      omega
    · rw [ha]; exact c.len
    · unfold HookSt.elems; rw [ha]; exact c.elems
    · exfalso
      have h1 : s.arrs.length = x.arr := he
      have := c.arr
      omega

theorem cov_alloc {s : HookSt} {key : String} {x : HookSlice} {l : List (Option Hook)} (c : Cov s key x l) (v : List (Option Hook)) :
    Cov (s.alloc v).2 key x l ∧ (s.alloc v).1 ≠ x.arr := by
  have ha : (s.alloc v).2.arr x.arr = s.arr x.arr := by
    simp [alloc, HookSt.arr, List.getD, List.getElem?_append_left c.arr]
  have := c.arr
  refine ⟨⟨?_, ?_, ?_, c.own⟩, ?_⟩
  · simp only [alloc, List.length_append, List.length_singleton]
    omega
  · rw [ha]; exact c.len
  · unfold HookSt.elems; rw [ha]; exact c.elems
  · show s.arrs.length ≠ x.arr
    omega

theorem cov_set {s : HookSt} {key : String} {x : HookSlice} {l : List (Option Hook)} (c : Cov s key x l) {k : String} {y : HookSlice}
    (h : y.arr = x.arr → k = key ∧ x.len ≤ y.len) : Cov (s.setHooks k y) key x l :=
  ⟨c.arr, c.len, c.elems, fun k' y' hy' he => by
    unfold setHooks at hy'
    rw [OMap.get_set] at hy'
    by_cases hk : k' = k
    · rw [if_pos hk] at hy'; cases hy'; rw [hk]; exact h he
    · rw [if_neg hk] at hy'; exact c.own k' y' hy' he⟩

theorem cov_getHooks {s s1 : HookSt} {key : String} {x y : HookSlice} {l : List (Option Hook)} (c : Cov s key x l) {k : String}
    (h : s.getHooks k = (y, s1)) : Cov s1 key x l ∧ (y.arr = x.arr → k = key ∧ x.len ≤ y.len) := by
  unfold getHooks at h
  cases hg : OMap.get s.keys k with
  | some z => rw [hg] at h; cases h; exact ⟨c, c.own k y hg⟩
  | none =>
    rw [hg] at h; cases h
    obtain ⟨c1, hn⟩ := cov_alloc c []
    exact ⟨c1, fun he => absurd he hn⟩

/-- A call that is not a removal for `key` leaves a run for `key` alone. -/
theorem cov_run {s : HookSt} {m : HookLists} (r : Rep s m) {key : String} {x : HookSlice} {l : List (Option Hook)} (c : Cov s key x l)
    (o : Op) (ho : ∀ h, o ≠ .remove key h) : Cov (o.run s) key x l := by
  cases o with
  | append k h n =>
    unfold Op.run appendHook
    cases hg : s.getHooks k with
    | mk z s1 =>
      obtain ⟨c1, hz⟩ := cov_getHooks c hg
      obtain ⟨_, o1, _, _⟩ := getHooks_spec r k hg
      cases ha : append n s1 z [h] with
      | mk y s2 =>
        obtain ⟨c2, _, hy⟩ := cov_append c1 (fun e => (hz e).2) o1.len ha
        simp only [hg, ha]
        exact cov_set c2 fun e => ⟨(hz (hy e).1).1, (hy e).2⟩
  | prepend k h n =>
    unfold Op.run prependHook
    cases hg : s.getHooks k with
    | mk z s1 =>
      obtain ⟨c1, hz⟩ := cov_getHooks c hg
      obtain ⟨c2, hne⟩ := cov_alloc c1 [h]
      cases ha : append n (s1.alloc [h]).2 ⟨(s1.alloc [h]).1, 1⟩ (s1.elems z) with
      | mk y s2 =>
        obtain ⟨c3, _, hy⟩ := cov_append c2 (fun e => absurd e hne)
          (by rw [show (s1.alloc [h]).1 = s1.arrs.length from rfl, arr_alloc]; exact Nat.le_refl 1) ha
        simp only [hg, ha]
        exact cov_set c3 fun e => absurd (hy e).1 hne
  | remove k h =>
    have hk : k ≠ key := by rintro rfl; exact ho h rfl
    unfold Op.run removeHook
    cases hg : s.getHooks k with
    | mk z s1 =>
      obtain ⟨c1, hz⟩ := cov_getHooks c hg
      obtain ⟨_, o1, _, _⟩ := getHooks_spec r k hg
      have hne : z.arr ≠ x.arr := fun e => hk (hz e).1
      simp only [hg]
      cases hi : (s1.elems z).findIdx? (fun g => decide (codeOf g = codeOf h)) with
      | none => exact cov_set c1 fun e => absurd e hne
      | some i =>
        simp only
        have hil : i ≤ z.len := by
          obtain ⟨hlt, _⟩ := List.findIdx?_eq_some_iff_getElem.1 hi
          unfold HookSt.elems at hlt
          rw [List.length_take] at hlt
          omega
        cases ha : append 0 s1 ⟨z.arr, i⟩ ((s1.elems z).drop (i + 1)) with
        | mk y s2 =>
          obtain ⟨c2, _, hy⟩ := cov_append (z := ⟨z.arr, i⟩) c1 (fun e => absurd e hne) (Nat.le_trans hil o1.len) ha
          exact cov_set c2 fun e => absurd (hy e).1 hne
  | clear k =>
    unfold Op.run clearHooks
    obtain ⟨c1, hne⟩ := cov_alloc c []
    exact cov_set c1 fun e => absurd e hne

theorem cov_ops {key : String} {x : HookSlice} {l : List (Option Hook)} (ops : List Op) (ho : ∀ o ∈ ops, ∀ h, o ≠ .remove key h)
    {s : HookSt} {m : HookLists} (r : Rep s m) (c : Cov s key x l) : Cov (ops.foldl (fun s o => o.run s) s) key x l := by
  induction ops generalizing s m with
  | nil => exact c
  | cons o ops ih => exact ih (fun o' h' => ho o' (List.mem_cons_of_mem _ h')) (rep_run r o) (cov_run r c o (ho o (List.mem_cons_self ..)))

theorem Cov.cell {s : HookSt} {key : String} {x : HookSlice} {l : List (Option Hook)} (c : Cov s key x l) {i : Nat} (hi : i < x.len) :
    (s.arr x.arr)[i]? = l[i]? := by
  rw [← c.elems]; unfold HookSt.elems
  rw [List.getElem?_take_of_lt hi]

/-- The loop, when no hook removes hooks of the running key: the hooks it calls, and the lists afterwards. -/
theorem callLoop_calm {beh : Behaviour} {key : String} (hq : ∀ h s, ∀ o ∈ (beh h s).1, ∀ g, o ≠ .remove key g)
    {fails : Hook → Option String} (hf : ∀ h s, (beh h s).2 = fails h) {x : HookSlice} {l : List (Option Hook)} :
    ∀ n i, i + n = x.len → ∀ {s m}, Rep s m → Cov s key x l → ∃ hs r s', callLoop beh x n i s = (hs, r, s') ∧
      hs = ran fails (l.drop i) ∧ r = firstError fails (l.drop i) := by
  intro n
  induction n with
  | zero =>
    intro i hi s m r c
    have hl : l.length = x.len := by rw [← c.elems]; unfold HookSt.elems; rw [List.length_take, Nat.min_eq_left c.len]
    refine ⟨_, _, _, rfl, ?_, ?_⟩ <;> rw [List.drop_eq_nil_of_le (by omega)] <;> rfl
  | succ n ih =>
    intro i hi s m r c
    have hl : l.length = x.len := by rw [← c.elems]; unfold HookSt.elems; rw [List.length_take, Nat.min_eq_left c.len]
    have hlt : i < l.length := by omega
    rw [List.drop_eq_getElem_cons hlt]
    unfold callLoop
    rw [c.cell (by omega), List.getElem?_eq_getElem hlt]
    cases hc : l[i] with
    | none =>
      simp only [ran, firstError]
      exact ih (i + 1) (by omega) r c
    | some h =>
      have h1 := hq h s
      have h2 := hf h s
      cases hb : beh h s with
      | mk ops e =>
        rw [hb] at h1 h2
        simp only at h1 h2
        simp only [ran, firstError, hb]
        subst h2
        cases hfail : fails h with
        | some e => exact ⟨_, _, _, rfl, rfl, rfl⟩
        | none =>
          obtain ⟨hs, r', s', he, h3, h4⟩ := ih (i + 1) (by omega) (rep_history ops r) (cov_ops ops h1 r c)
          simp only [he]
          exact ⟨_, _, _, rfl, by rw [h3], h4⟩

theorem Own.cov {s : HookSt} {key : String} {x : HookSlice} (o : Own s key x)
    (hk : ∀ y, OMap.get s.keys key = some y → y = x) : Cov s key x (s.elems x) :=
  ⟨o.arr, o.len, rfl, fun k y hy he => by
    by_cases h : k = key
    · subst h; rw [hk y hy]; exact ⟨rfl, Nat.le_refl _⟩
    · exact absurd he (o.sep k h y hy)⟩

theorem callHooks_calm {beh : Behaviour} {key : String} (hq : ∀ h s, ∀ o ∈ (beh h s).1, ∀ g, o ≠ .remove key g)
    {fails : Hook → Option String} (hf : ∀ h s, (beh h s).2 = fails h) {s : HookSt} {m : HookLists} (r : Rep s m) :
    (callHooks beh key s).1 = ran fails (m key) ∧ (callHooks beh key s).2.1 = firstError fails (m key) := by
  unfold callHooks
  cases hg : s.getHooks key with
  | mk x s1 =>
    obtain ⟨f1, o1, e1, r1⟩ := getHooks_spec r key hg
    have hk : ∀ y, OMap.get s1.keys key = some y → y = x := by
      intro y hy
      unfold getHooks at hg
      cases h : OMap.get s.keys key with
      | some z => rw [h] at hg; cases hg; rw [h] at hy; exact (Option.some.inj hy).symm
      | none => rw [f1.keys, h] at hy; cases hy
    obtain ⟨hs, r', s', he, h3, h4⟩ := callLoop_calm hq hf x.len 0 (by omega) r1 (o1.cov hk)
    simp only [he]
    rw [e1] at h3 h4
    exact ⟨h3, h4⟩

/-- The loop over cells whose hooks do nothing: nothing changes. -/
theorem callLoop_quiet {beh : Behaviour} (x : HookSlice) (s : HookSt) (l : List Hook)
    (hq : ∀ h ∈ l, ∀ s, beh h s = ([], none)) : ∀ i n, (∀ j (hj : j < l.length), (s.arr x.arr)[i + j]? = some (some l[j])) →
    callLoop beh x (l.length + n) i s =
      (l ++ (callLoop beh x n (i + l.length) s).1, (callLoop beh x n (i + l.length) s).2) := by
  induction l with
  | nil => intro i n _; simp
  | cons h l ih =>
    intro i n hc
    have h0 := hc 0 (by simp)
    simp only [List.getElem_cons_zero, Nat.add_zero] at h0
    rw [List.length_cons, show l.length + 1 + n = (l.length + n) + 1 by omega]
    rw [callLoop]
    rw [h0]
    simp only [hq h (List.mem_cons_self ..) s, List.foldl_nil]
    rw [ih (fun g hg => hq g (List.mem_cons_of_mem _ hg)) (i + 1) n (by
      intro j hj
      have := hc (j + 1) (by simp; omega)
      rw [show i + 1 + j = i + (j + 1) by omega, this, List.getElem_cons_succ])]
    rw [show i + 1 + l.length = i + (l.length + 1) by omega]
    rfl

/-- A hook that removes itself while it runs. -/
theorem callHooks_self_remove {beh : Behaviour} {key : String} {pre post : List Hook} {h last : Hook} {s : HookSt} {m : HookLists}
    (r : Rep s m) (hm : m key = (pre ++ h :: (post ++ [last])).map some) (hh : ∀ s, beh h s = ([.remove key (some h)], none))
    (hq : ∀ g ∈ pre ++ (post ++ [last]), ∀ s, beh g s = ([], none)) (hcode : ∀ g ∈ pre, g.code ≠ h.code) :
    (callHooks beh key s).1 = pre ++ h :: ((post ++ [last]).tail ++ [last]) := by
  unfold callHooks
  cases hg : s.getHooks key with
  | mk x s1 =>
    obtain ⟨f1, o1, e1, r1⟩ := getHooks_spec r key hg
    have hk : s1.getHooks key = (x, s1) := by
      unfold getHooks at hg ⊢
      cases h' : OMap.get s.keys key with
      | some z => rw [h'] at hg; cases hg; rw [h']
      | none => rw [r.none key h'] at hm; simp at hm
    simp only
    have hxl : x.len = pre.length + (post.length + 2) := by
      have : (s1.elems x).length = x.len := by unfold elems; rw [List.length_take, Nat.min_eq_left o1.len]
      rw [← this, e1, hm]; simp
    have hcell : ∀ i (hi : i < x.len), (s1.arr x.arr)[i]? = ((pre ++ h :: (post ++ [last])).map some)[i]? := by
      intro i hi
      rw [← hm, ← e1]; unfold elems; rw [List.getElem?_take_of_lt hi]
    rw [hxl, callLoop_quiet x s1 pre (fun g hg => hq g (List.mem_append_left _ hg)) 0 _ (by
      intro j hj
      rw [Nat.zero_add, hcell j (by omega), List.getElem?_map, List.getElem?_append_left hj, List.getElem?_eq_getElem hj]
      rfl)]
    simp only [Nat.zero_add]
    rw [show post.length + 2 = (post.length + 1) + 1 from rfl, callLoop]
    rw [hcell pre.length (by omega)]
    have hph : ((pre ++ h :: (post ++ [last])).map some)[pre.length]? = some (some h) := by simp
    rw [hph]
    simp only [hh, List.foldl_cons, List.foldl_nil]
    -- the state after the removal
    have hrem : ∃ s2, Op.run (.remove key (some h)) s1 = s2 ∧
        s2.arr x.arr = (pre ++ (post ++ [last]) ++ [last]).map some ++ (s1.arr x.arr).drop x.len := by
      refine ⟨_, rfl, ?_⟩
      have hidx : ((pre ++ h :: (post ++ [last])).map some).findIdx? (fun g => decide (codeOf g = codeOf (some h))) = some pre.length := by
        rw [List.findIdx?_eq_some_iff_getElem]
        refine ⟨by simp, by simp, ?_⟩
        intro j hj
        simp only [List.getElem_map, List.getElem_append_left hj, codeOf]
        simpa using hcode _ (List.getElem_mem hj)
      show (removeHook key (some h) s1).arr x.arr = _
      unfold removeHook
      simp only [hk, e1, hm, hidx]
      unfold append
      have hdrop : List.drop (pre.length + 1) ((pre ++ h :: (post ++ [last])).map some) = (post ++ [last]).map some := by
        rw [← List.map_drop, show pre ++ h :: (post ++ [last]) = (pre ++ [h]) ++ (post ++ [last]) by simp, List.drop_left' (by simp)]
      have hlen := o1.len
      simp only [hdrop]
      rw [if_pos (by simp; omega)]
      simp only [setHooks]
      have hput : ∀ c, (s1.put x.arr c).arr x.arr = c := by
        intro c; unfold put arr; simp [List.getD_eq_getElem?_getD, List.getElem?_set, o1.arr]
      show (s1.put x.arr _).arr x.arr = _
      rw [hput]
      have hsplit : s1.arr x.arr = (pre ++ h :: (post ++ [last])).map some ++ (s1.arr x.arr).drop x.len := by
        rw [← hm, ← e1]; unfold elems; exact (List.take_append_drop _ _).symm
      generalize hd : (s1.arr x.arr).drop x.len = d at hsplit ⊢
      have ht : (s1.arr x.arr).take pre.length = pre.map some := by
        rw [hsplit, List.map_append, List.append_assoc, List.take_left' (by simp)]
      have hdr : (s1.arr x.arr).drop (pre.length + ((post ++ [last]).map some).length) = some last :: d := by
        rw [hsplit, show (pre ++ h :: (post ++ [last])).map some ++ d = (pre ++ h :: post).map some ++ (some last :: d) by simp,
          List.drop_left' (by simp)]
      rw [ht, hdr]
      simp
    obtain ⟨s2, he2, hs2⟩ := hrem
    rw [he2]
    have hlast : ∀ j (hj : j < ((post ++ [last]).tail ++ [last]).length),
        (s2.arr x.arr)[pre.length + 1 + j]? = some (some ((post ++ [last]).tail ++ [last])[j]) := by
      intro j hj
      have hjl : j < post.length + 1 := by simpa using hj
      rw [hs2, List.getElem?_append_left (by simp; omega), List.getElem?_map,
        show pre ++ (post ++ [last]) ++ [last] = pre ++ ((post ++ [last]) ++ [last]) by simp,
        List.getElem?_append_right (by omega), show pre.length + 1 + j - pre.length = j + 1 by omega]
      have : ((post ++ [last]) ++ [last])[j + 1]? = ((post ++ [last]).tail ++ [last])[j]? := by
        cases post with
        | nil => simp
        | cons a post => simp
      rw [this, List.getElem?_eq_getElem hj]; rfl
    have hfin := callLoop_quiet x s2 ((post ++ [last]).tail ++ [last]) (fun g hg => hq g (by
      apply List.mem_append_right
      rcases List.mem_append.1 hg with h | h
      · exact List.mem_of_mem_tail h
      · exact List.mem_append_right _ h)) (pre.length + 1) 0 hlast
    have hl : ((post ++ [last]).tail ++ [last]).length + 0 = post.length + 1 := by simp
    rw [hl] at hfin
    rw [hfin]
    simp [callLoop]

end GoRaml.HookSt
