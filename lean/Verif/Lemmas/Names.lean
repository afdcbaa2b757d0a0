import Verif.Model.Lookup
import Verif.Spec.Names
import Mathlib.Tactic.Common
import Mathlib.Data.List.Infix

/-!
# Lemmas on names
-/

namespace GoRaml

open Spec

section
variable {α : Type} [DecidableEq α]

theorem lastIndex_some {sep : List α} : ∀ {s : List α} {i : Nat}, lastIndex sep s = some i →
    sep <+: s.drop i ∧ i ≤ s.length
  | [], i, h => by
    unfold lastIndex at h
    split at h
    · rename_i hs; cases h; subst hs; simp
    · cases h
  | c :: s, i, h => by
    unfold lastIndex at h
    cases hl : lastIndex sep s with
    | some j =>
      rw [hl] at h; cases h
      obtain ⟨h1, h2⟩ := lastIndex_some hl
      exact ⟨by simpa using h1, by simpa using h2⟩
    | none =>
      rw [hl] at h
      simp only at h
      split at h
      · cases h; exact ⟨by simpa, by simp⟩
      · cases h

theorem lastIndex_max {sep : List α} : ∀ {s : List α} {j : Nat}, sep <+: s.drop j → j ≤ s.length →
    ∃ i, lastIndex sep s = some i ∧ j ≤ i
  | [], j, h, hj => by
    have hj0 : j = 0 := by simpa using hj
    subst hj0
    have : sep = [] := by simpa using h
    exact ⟨0, by simp [lastIndex, this], Nat.le_refl _⟩
  | c :: s, j, h, hj => by
    cases j with
    | zero =>
      unfold lastIndex
      cases hl : lastIndex sep s with
      | some i => exact ⟨i + 1, rfl, Nat.zero_le _⟩
      | none => exact ⟨0, by simp only; rw [if_pos (by simpa using h)], Nat.le_refl _⟩
    | succ j =>
      obtain ⟨i, h1, h2⟩ := lastIndex_max (s := s) (j := j) (by simpa using h) (by simpa using hj)
      exact ⟨i + 1, by unfold lastIndex; rw [h1], by omega⟩

theorem cutLast_true {s sep b a : List α} : cutLast s sep = (b, a, true) ↔
    s = b ++ sep ++ a ∧ ∀ b' a', s = b' ++ sep ++ a' → b'.length ≤ b.length := by
  unfold cutLast
  constructor
  · intro h
    cases hl : lastIndex sep s with
    | none => rw [hl] at h; simp at h
    | some i =>
      rw [hl] at h
      simp only [Prod.mk.injEq, and_true] at h
      obtain ⟨rfl, rfl⟩ := h
      obtain ⟨⟨t, ht⟩, hi⟩ := lastIndex_some hl
      constructor
      · have : s.drop (i + sep.length) = t := by
          rw [← List.drop_drop, ← ht, List.drop_left]
        rw [this, List.append_assoc, ht, List.take_append_drop]
      · intro b' a' hs
        obtain ⟨i', h1, h2⟩ := lastIndex_max (sep := sep) (s := s) (j := b'.length)
          (by rw [hs, List.append_assoc, List.drop_left]; exact ⟨a', rfl⟩) (by rw [hs]; simp)
        rw [hl] at h1; cases h1
        rw [List.length_take]
        omega
  · rintro ⟨hs, hmax⟩
    obtain ⟨i, h1, h2⟩ := lastIndex_max (sep := sep) (s := s) (j := b.length)
      (by rw [hs, List.append_assoc, List.drop_left]; exact ⟨a, rfl⟩) (by rw [hs]; simp)
    rw [h1]
    obtain ⟨⟨t, ht⟩, hi⟩ := lastIndex_some h1
    have : i ≤ b.length := by
      have := hmax (s.take i) t (by rw [List.append_assoc, ht, List.take_append_drop])
      rwa [List.length_take, Nat.min_eq_left hi] at this
    have hib : i = b.length := by omega
    subst hib
    simp only [Prod.mk.injEq, and_true]
    constructor
    · rw [hs, List.append_assoc, List.take_left]
    · rw [hs, ← List.length_append, List.drop_left]

theorem cutLast_false {s sep : List α} : (cutLast s sep).2.2 = false ↔ ¬ ∃ b a, s = b ++ sep ++ a := by
  unfold cutLast
  cases hl : lastIndex sep s with
  | none =>
    simp only [true_iff]
    rintro ⟨b, a, hs⟩
    obtain ⟨i, h1, h2⟩ := lastIndex_max (sep := sep) (s := s) (j := b.length)
      (by rw [hs, List.append_assoc, List.drop_left]; exact ⟨a, rfl⟩) (by rw [hs]; simp)
    rw [hl] at h1; cases h1
  | some i =>
    obtain ⟨⟨t, ht⟩, hi⟩ := lastIndex_some hl
    simp only [Bool.true_eq_false, false_iff, not_not]
    exact ⟨s.take i, t, by rw [List.append_assoc, ht, List.take_append_drop]⟩

theorem cutLast_false_val {s sep : List α} (h : (cutLast s sep).2.2 = false) : cutLast s sep = (s, [], false) := by
  unfold cutLast at h ⊢
  cases hl : lastIndex sep s with
  | none => rfl
  | some i => rw [hl] at h; cases h

end

theorem ofList_toList (s : String) : String.ofList s.toList = s := by simp

theorem dotted_iff {name lib ident : String} : Dotted name lib ident ↔
    cutLast name.toList ['.'] = (lib.toList, ident.toList, true) := by
  rw [cutLast_true]
  unfold Dotted
  have hs : name = lib ++ "." ++ ident ↔ name.toList = lib.toList ++ ['.'] ++ ident.toList := by
    rw [← String.toList_inj]; simp
  rw [hs]
  refine and_congr_right fun hn => ?_
  rw [hn]
  constructor
  · intro hd b' a' he
    by_contra hlt
    push Not at hlt
    have h1 : (b' ++ ['.'] ++ a')[b'.length]? = some '.' := by simp
    rw [← he] at h1
    have h2 : (lib.toList ++ ['.'] ++ ident.toList)[b'.length]? = ident.toList[b'.length - (lib.toList ++ ['.']).length]? :=
      List.getElem?_append_right (by simp; omega)
    rw [h2] at h1
    exact hd (List.mem_of_getElem? h1)
  · intro hmax hd
    obtain ⟨x, y, hxy⟩ := List.append_of_mem hd
    have := hmax (lib.toList ++ ['.'] ++ x) y (by rw [hxy]; simp)
    simp at this
    omega

theorem cutReferenceName_true {name b a : String} : cutReferenceName name = (b, a, true) ↔ Dotted name b a := by
  rw [dotted_iff]
  unfold cutReferenceName
  simp only [Prod.mk.injEq]
  constructor
  · rintro ⟨rfl, rfl, h⟩
    simp only [String.toList_ofList]
    exact Prod.ext rfl (Prod.ext rfl h)
  · intro h; rw [h]; simp

theorem cutReferenceName_false {name : String} : (cutReferenceName name).2.2 = false ↔ '.' ∉ name.toList := by
  show (cutLast name.toList ['.']).2.2 = false ↔ _
  rw [cutLast_false]
  constructor
  · intro h hd
    obtain ⟨x, y, hxy⟩ := List.append_of_mem hd
    exact h ⟨x, y, by rw [hxy]; simp⟩
  · rintro h ⟨b, a, hs⟩
    exact h (by rw [hs]; simp)

theorem cutReferenceName_false_val {name : String} (h : (cutReferenceName name).2.2 = false) :
    cutReferenceName name = (name, "", false) := by
  have : cutLast name.toList ['.'] = (name.toList, [], false) := cutLast_false_val h
  unfold cutReferenceName
  rw [this]; simp

theorem dotted_unique {name b a b' a' : String} (h : Dotted name b a) (h' : Dotted name b' a') : b = b' ∧ a = a' := by
  have h1 := cutReferenceName_true.2 h
  rw [cutReferenceName_true.2 h'] at h1
  simp only [Prod.mk.injEq, and_true] at h1
  exact ⟨h1.1.symm, h1.2.symm⟩

theorem cut_cases (name : String) : (∃ b a, cutReferenceName name = (b, a, true) ∧ Dotted name b a) ∨
    (cutReferenceName name = (name, "", false) ∧ ∀ b a, ¬ Dotted name b a) := by
  cases hf : (cutReferenceName name).2.2 with
  | true =>
    have : cutReferenceName name = ((cutReferenceName name).1, (cutReferenceName name).2.1, true) :=
      Prod.ext rfl (Prod.ext rfl hf)
    exact Or.inl ⟨_, _, this, cutReferenceName_true.1 this⟩
  | false =>
    refine Or.inr ⟨cutReferenceName_false_val hf, fun b a hd => ?_⟩
    rw [cutReferenceName_true.2 hd] at hf
    cases hf

theorem lookupUsed_ok {h : St} {uses : OMap (String × Option Nat)} {sel : Lib → OMap Addr} {b a : String} {r : Addr} :
    lookupUsed h uses sel b a = .ok r ↔ ∃ lib, UsedLib h uses b lib ∧ OMap.get (sel lib) a = some r := by
  unfold lookupUsed UsedLib
  cases hu : OMap.get uses b with
  | none => simp
  | some x =>
    obtain ⟨p, link⟩ := x
    cases link with
    | none => simp
    | some i =>
      cases hl : h.libs[i]? with
      | none => simp [hl]
      | some lib =>
        simp only [Option.bind_some, hl]
        cases hg : OMap.get (sel lib) a with
        | none => simp [hl, hg]
        | some r' => simp [hl, hg]

theorem lookupUsed_err {h : St} {uses : OMap (String × Option Nat)} {sel : Lib → OMap Addr} {b a : String}
    (hl : AllLoaded h uses) (hn : ¬ ∃ r, lookupUsed h uses sel b a = .ok r) : ∃ e, lookupUsed h uses sel b a = .err e := by
  unfold lookupUsed at hn ⊢
  cases hu : OMap.get uses b with
  | none => exact ⟨_, rfl⟩
  | some x =>
    obtain ⟨p, link⟩ := x
    obtain ⟨i, lib, rfl, hlib⟩ := hl b p link hu
    rw [hu] at hn
    simp only [Option.bind_some, hlib] at hn ⊢
    cases hg : OMap.get (sel lib) a with
    | none => exact ⟨_, rfl⟩
    | some r' => rw [hg] at hn; exact absurd ⟨r', rfl⟩ hn

theorem trimRight_append {α : Type} {p : α → Bool} {s t : List α} (hs : ∀ c ∈ s.getLast?, p c = false)
    (ht : ∀ c ∈ t, p c = true) : trimRight p (s ++ t) = s := by
  unfold trimRight
  rw [List.reverse_append, List.dropWhile_append_of_pos (by simpa using ht)]
  cases hr : s.reverse with
  | nil => simp [List.reverse_eq_nil_iff.1 hr]
  | cons c r =>
    have : s.getLast? = some c := by rw [List.getLast?_eq_head?_reverse, hr]; rfl
    rw [List.dropWhile_cons_of_neg (by simp [hs c this]), ← hr, List.reverse_reverse]

theorem trimRight_split {α : Type} (p : α → Bool) (s : List α) : ∃ t, s = trimRight p s ++ t ∧ ∀ c ∈ t, p c = true := by
  refine ⟨(s.reverse.takeWhile p).reverse, ?_, ?_⟩
  · unfold trimRight
    rw [← List.reverse_append, List.takeWhile_append_dropWhile, List.reverse_reverse]
  · intro c hc
    exact List.all_eq_true.1 (List.all_takeWhile) c (List.mem_reverse.1 hc)

theorem readLine_some {s l : List Char} : readLine s = some l ↔ ∃ a b, s = a ++ '\n' :: b ∧ l = a ++ ['\n'] ∧ '\n' ∉ a := by
  induction s generalizing l with
  | nil => simp [readLine]
  | cons c s ih =>
    unfold readLine
    by_cases hc : c = '\n'
    · subst hc
      simp only [if_true, Option.some.injEq]
      constructor
      · rintro rfl; exact ⟨[], s, rfl, rfl, by simp⟩
      · rintro ⟨a, b, h1, rfl, h3⟩
        cases a with
        | nil => rfl
        | cons d a => simp at h1; exact absurd (by simp [← h1.1]) h3
    · simp only [if_neg hc, Option.map_eq_some_iff]
      constructor
      · rintro ⟨l', h1, rfl⟩
        obtain ⟨a, b, rfl, rfl, h4⟩ := ih.1 h1
        exact ⟨c :: a, b, rfl, rfl, by simp [h4, Ne.symm hc]⟩
      · rintro ⟨a, b, h1, rfl, h3⟩
        cases a with
        | nil => simp at h1; exact absurd h1.1 hc
        | cons d a =>
          simp only [List.cons_append, List.cons.injEq] at h1
          obtain ⟨rfl, rfl⟩ := h1
          exact ⟨a ++ ['\n'], ih.2 ⟨a, b, rfl, rfl, fun h => h3 (List.mem_cons_of_mem _ h)⟩, rfl⟩

end GoRaml
