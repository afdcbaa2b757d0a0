import Verif.Model.SchemaMap
import Verif.Spec.SchemaMap
import Mathlib.Data.List.Basic

/-!
# Lemmas on schema copies and maps
-/

namespace GoRaml

open GoRaml.Spec

mutual
theorem deepCopy_eq : ∀ s : JS, s.deepCopy = s
  | .mk core ds al an on n i t e it pn ps pps anns fds fd => by
    rw [JS.deepCopy, copyEntries_eq ds, copyList_eq al, copyList_eq an, copyList_eq on, copyOpt_eq n, copyOpt_eq i, copyOpt_eq t,
      copyOpt_eq e, copyOpt_eq it, copyOpt_eq pn, copyMap_eq ps, copyMap_eq pps, copyMap_eq fds]
theorem copyOpt_eq : ∀ s : Option JS, copyOpt s = s
  | none => rfl
  | some s => by rw [copyOpt, deepCopy_eq s]
theorem copyList_eq : ∀ l : List (Option JS), copyList l = l
  | [] => rfl
  | s :: l => by rw [copyList, copyOpt_eq s, copyList_eq l]
theorem copyMap_eq : ∀ l : Option (List (String × Option JS)), copyMap l = l
  | none => rfl
  | some m => by rw [copyMap, copyEntries_eq m]
theorem copyEntries_eq : ∀ l : List (String × Option JS), copyEntries l = l
  | [] => rfl
  | e :: m => by rw [copyEntries, copyEntry_eq e, copyEntries_eq m]
theorem copyEntry_eq : ∀ e : String × Option JS, copyEntry e = e
  | (k, s) => by rw [copyEntry, copyOpt_eq s]
end

theorem mapList_eq (l : List (Option JS)) : mapList l = l.map mapOpt := by
  induction l with
  | nil => rfl
  | cons s l ih => rw [mapList, ih, List.map_cons]

theorem mapEntries_eq (l : List (String × Option JS)) : mapEntries l = l.map fun e => (e.1, mapOpt e.2) := by
  induction l with
  | nil => rfl
  | cons e l ih => obtain ⟨k, s⟩ := e; rw [mapEntries, ih, List.map_cons, mapEntry]

theorem mapMap_eq (l : Option (List (String × Option JS))) : mapMap l = (l.getD []).map fun e => (e.1, mapOpt e.2) := by
  cases l with
  | none => rfl
  | some m => exact mapEntries_eq m

theorem mapOpt_nil {s : Option JS} : mapOpt s = .nil ↔ s = none := by
  cases s with
  | none => exact ⟨fun _ => rfl, fun _ => rfl⟩
  | some s => exact ⟨fun h => by (rw [mapOpt] at h; cases h), fun h => (by cases h)⟩

theorem mem_strField {k s : String} {p : String × GoVal} : p ∈ strField k s ↔ s ≠ "" ∧ p = (k, .str s) := by
  unfold strField; split <;> simp [*]

theorem mem_natField {k : String} {n : Option Nat} {p : String × GoVal} : p ∈ natField k n ↔ ∃ m, n = some m ∧ p = (k, .int m) := by
  cases n <;> simp [natField]

theorem mem_numField {k : String} {n : Option JNum} {p : String × GoVal} :
    p ∈ numField k n ↔ (∃ z, n = some (.int z) ∧ p = (k, .int z)) ∨ ∃ x, n = some (.float x) ∧ p = (k, .float x) := by
  cases n with
  | none => simp [numField]
  | some n => cases n <;> simp [numField, JNum.val]

theorem mem_boolField {k : String} {b : Option Bool} {p : String × GoVal} : p ∈ boolField k b ↔ ∃ m, b = some m ∧ p = (k, .bool m) := by
  cases b <;> simp [boolField]

theorem mem_valField {k : String} {v : GoVal} {p : String × GoVal} : p ∈ valField k v ↔ v ≠ .nil ∧ p = (k, v) := by
  cases v <;> simp [valField]

theorem mem_listField {k : String} {l : List GoVal} {p : String × GoVal} : p ∈ listField k l ↔ l ≠ [] ∧ p = (k, .arr l) := by
  unfold listField; split <;> simp [*]

theorem mem_mapField {k : String} {l : List (String × GoVal)} {p : String × GoVal} : p ∈ mapField k l ↔ l ≠ [] ∧ p = (k, .map l) := by
  unfold mapField; split <;> simp [*]

theorem strField_keys {k : String} {x : String} : ((strField k x).map (·.1)).Sublist [k] := by
  unfold strField; split <;> simp

theorem listField_keys {k : String} {x : List GoVal} : ((listField k x).map (·.1)).Sublist [k] := by
  unfold listField; split <;> simp

theorem valField_keys {k : String} {x : GoVal} : ((valField k x).map (·.1)).Sublist [k] := by
  cases x <;> simp [valField]

theorem numField_keys {k : String} {x : Option JNum} : ((numField k x).map (·.1)).Sublist [k] := by
  cases x <;> simp [numField]

theorem natField_keys {k : String} {x : Option Nat} : ((natField k x).map (·.1)).Sublist [k] := by
  cases x <;> simp [natField]

theorem boolField_keys {k : String} {x : Option Bool} : ((boolField k x).map (·.1)).Sublist [k] := by
  cases x <;> simp [boolField]

theorem mapField_keys {k : String} {x : List (String × GoVal)} : ((mapField k x).map (·.1)).Sublist [k] := by
  unfold mapField; split <;> simp

theorem mem_l {α : Type} {p : α} {l m : List α} (h : p ∈ l) : p ∈ l ++ m := List.mem_append.2 (.inl h)

theorem mem_r {α : Type} {p : α} {l m : List α} (h : p ∈ m) : p ∈ l ++ m := List.mem_append.2 (.inr h)

theorem mem_coreFields {F : Option JS → GoVal} {s : JS} {p : String × GoVal} (h : p ∈ s.core.fields) : Keyword F s p.1 p.2 := by
  rw [JSCore.fields] at h
  rcases List.mem_append.1 h with h | h
  · rw [mem_strField] at h; obtain ⟨hne, rfl⟩ := h; exact .version hne
  rcases List.mem_append.1 h with h | h
  · rw [mem_strField] at h; obtain ⟨hne, rfl⟩ := h; exact .id hne
  rcases List.mem_append.1 h with h | h
  · rw [mem_strField] at h; obtain ⟨hne, rfl⟩ := h; exact .ref hne
  rcases List.mem_append.1 h with h | h
  · rw [mem_strField] at h; obtain ⟨hne, rfl⟩ := h; exact .comment hne
  rcases List.mem_append.1 h with h | h
  · rw [mem_strField] at h; obtain ⟨hne, rfl⟩ := h; exact .type hne
  rcases List.mem_append.1 h with h | h
  · rw [mem_listField] at h; obtain ⟨hne, rfl⟩ := h; exact .enum hne
  rcases List.mem_append.1 h with h | h
  · rw [mem_valField] at h; obtain ⟨hne, rfl⟩ := h; exact .const hne
  rcases List.mem_append.1 h with h | h
  · rw [mem_numField] at h; rcases h with ⟨m, hm, rfl⟩ | ⟨m, hm, rfl⟩ <;> [exact .multipleOfInt hm; exact .multipleOfFloat hm]
  rcases List.mem_append.1 h with h | h
  · rw [mem_numField] at h; rcases h with ⟨m, hm, rfl⟩ | ⟨m, hm, rfl⟩ <;> [exact .maximumInt hm; exact .maximumFloat hm]
  rcases List.mem_append.1 h with h | h
  · rw [mem_numField] at h; rcases h with ⟨m, hm, rfl⟩ | ⟨m, hm, rfl⟩ <;> [exact .minimumInt hm; exact .minimumFloat hm]
  rcases List.mem_append.1 h with h | h
  · rw [mem_natField] at h; obtain ⟨m, hm, rfl⟩ := h; exact .maxLength hm
  rcases List.mem_append.1 h with h | h
  · rw [mem_natField] at h; obtain ⟨m, hm, rfl⟩ := h; exact .minLength hm
  rcases List.mem_append.1 h with h | h
  · rw [mem_strField] at h; obtain ⟨hne, rfl⟩ := h; exact .pattern hne
  rcases List.mem_append.1 h with h | h
  · rw [mem_natField] at h; obtain ⟨m, hm, rfl⟩ := h; exact .maxItems hm
  rcases List.mem_append.1 h with h | h
  · rw [mem_natField] at h; obtain ⟨m, hm, rfl⟩ := h; exact .minItems hm
  rcases List.mem_append.1 h with h | h
  · rw [mem_boolField] at h; obtain ⟨m, hm, rfl⟩ := h; exact .uniqueItems hm
  rcases List.mem_append.1 h with h | h
  · rw [mem_natField] at h; obtain ⟨m, hm, rfl⟩ := h; exact .maxContains hm
  rcases List.mem_append.1 h with h | h
  · rw [mem_natField] at h; obtain ⟨m, hm, rfl⟩ := h; exact .minContains hm
  rcases List.mem_append.1 h with h | h
  · rw [mem_natField] at h; obtain ⟨m, hm, rfl⟩ := h; exact .maxProperties hm
  rcases List.mem_append.1 h with h | h
  · rw [mem_natField] at h; obtain ⟨m, hm, rfl⟩ := h; exact .minProperties hm
  rcases List.mem_append.1 h with h | h
  · rw [mem_listField] at h; obtain ⟨hne, rfl⟩ := h; exact .required fun hn => hne (by rw [hn]; rfl)
  rcases List.mem_append.1 h with h | h
  · rw [mem_strField] at h; obtain ⟨hne, rfl⟩ := h; exact .contentEncoding hne
  rcases List.mem_append.1 h with h | h
  · rw [mem_strField] at h; obtain ⟨hne, rfl⟩ := h; exact .contentMediaType hne
  rcases List.mem_append.1 h with h | h
  · rw [mem_strField] at h; obtain ⟨hne, rfl⟩ := h; exact .format hne
  rcases List.mem_append.1 h with h | h
  · rw [mem_strField] at h; obtain ⟨hne, rfl⟩ := h; exact .title hne
  rcases List.mem_append.1 h with h | h
  · rw [mem_strField] at h; obtain ⟨hne, rfl⟩ := h; exact .description hne
  rcases List.mem_append.1 h with h | h
  · rw [mem_valField] at h; obtain ⟨hne, rfl⟩ := h; exact .default hne
  rcases List.mem_append.1 h with h | h
  · rw [mem_listField] at h; obtain ⟨hne, rfl⟩ := h; exact .examples hne
  rw [mem_boolField] at h; obtain ⟨m, hm, rfl⟩ := h; exact .additionalProperties hm

theorem getD_ne {α : Type} {l : Option (List α)} (h : l.getD [] ≠ []) : ∃ m, l = some m ∧ m ≠ [] := by
  cases l with
  | none => exact absurd rfl h
  | some m => exact ⟨m, rfl, h⟩

theorem keyword_of_mem {s : JS} {p : String × GoVal} (h : p ∈ s.toMap) : Keyword mapOpt s p.1 p.2 := by
  obtain ⟨core, ds, al, an, on, n, i, t, e, it, pn, ps, pps, anns, fds, fd⟩ := s
  rw [JS.toMap] at h
  rcases List.mem_append.1 h with h | h
  · exact mem_coreFields h
  rcases List.mem_append.1 h with h | h
  · rw [mem_mapField, mapEntries_eq] at h; obtain ⟨hne, rfl⟩ := h; exact .definitions fun hn => hne (by rw [show ds = [] from hn]; rfl)
  rcases List.mem_append.1 h with h | h
  · rw [mem_listField, mapList_eq] at h; obtain ⟨hne, rfl⟩ := h; exact .allOf fun hn => hne (by rw [show al = [] from hn]; rfl)
  rcases List.mem_append.1 h with h | h
  · rw [mem_listField, mapList_eq] at h; obtain ⟨hne, rfl⟩ := h; exact .anyOf fun hn => hne (by rw [show an = [] from hn]; rfl)
  rcases List.mem_append.1 h with h | h
  · rw [mem_listField, mapList_eq] at h; obtain ⟨hne, rfl⟩ := h; exact .oneOf fun hn => hne (by rw [show on = [] from hn]; rfl)
  rcases List.mem_append.1 h with h | h
  · rw [mem_valField] at h; obtain ⟨hne, rfl⟩ := h; exact .not_ fun hn => hne (mapOpt_nil.2 hn)
  rcases List.mem_append.1 h with h | h
  · rw [mem_valField] at h; obtain ⟨hne, rfl⟩ := h; exact .if_ fun hn => hne (mapOpt_nil.2 hn)
  rcases List.mem_append.1 h with h | h
  · rw [mem_valField] at h; obtain ⟨hne, rfl⟩ := h; exact .then_ fun hn => hne (mapOpt_nil.2 hn)
  rcases List.mem_append.1 h with h | h
  · rw [mem_valField] at h; obtain ⟨hne, rfl⟩ := h; exact .else_ fun hn => hne (mapOpt_nil.2 hn)
  rcases List.mem_append.1 h with h | h
  · rw [mem_valField] at h; obtain ⟨hne, rfl⟩ := h; exact .items fun hn => hne (mapOpt_nil.2 hn)
  rcases List.mem_append.1 h with h | h
  · rw [mem_mapField, mapMap_eq] at h; obtain ⟨hne, rfl⟩ := h; obtain ⟨m, rfl, hm⟩ := getD_ne (l := ps) fun hn => hne (by rw [hn]; rfl)
    exact .properties rfl hm
  rcases List.mem_append.1 h with h | h
  · rw [mem_mapField, mapMap_eq] at h; obtain ⟨hne, rfl⟩ := h; obtain ⟨m, rfl, hm⟩ := getD_ne (l := pps) fun hn => hne (by rw [hn]; rfl)
    exact .patternProperties rfl hm
  rcases List.mem_append.1 h with h | h
  · rw [mem_valField] at h; obtain ⟨hne, rfl⟩ := h; exact .propertyNames fun hn => hne (mapOpt_nil.2 hn)
  rcases List.mem_append.1 h with h | h
  · rw [mem_mapField] at h; obtain ⟨hne, rfl⟩ := h; obtain ⟨m, rfl, hm⟩ := getD_ne hne
    exact .annotations rfl hm
  rcases List.mem_append.1 h with h | h
  · rw [mem_mapField, mapMap_eq] at h; obtain ⟨hne, rfl⟩ := h; obtain ⟨m, rfl, hm⟩ := getD_ne (l := fds) fun hn => hne (by rw [hn]; rfl)
    exact .facetDefinitions rfl hm
  rw [mem_mapField] at h; obtain ⟨hne, rfl⟩ := h; obtain ⟨m, rfl, hm⟩ := getD_ne hne
  exact .facetData rfl hm

theorem mem_of_keyword {s : JS} {k : String} {v : GoVal} (h : Keyword mapOpt s k v) : (k, v) ∈ s.toMap := by
  obtain ⟨core, ds, al, an, on, n, i, t, e, it, pn, ps, pps, anns, fds, fd⟩ := s
  rw [JS.toMap]
  cases h with
  | version hm => exact mem_l (mem_l (mem_strField.2 ⟨hm, rfl⟩))
  | id hm => exact mem_l (mem_r (mem_l (mem_strField.2 ⟨hm, rfl⟩)))
  | ref hm => exact mem_l (mem_r (mem_r (mem_l (mem_strField.2 ⟨hm, rfl⟩))))
  | comment hm => exact mem_l (mem_r (mem_r (mem_r (mem_l (mem_strField.2 ⟨hm, rfl⟩)))))
  | type hm => exact mem_l (mem_r (mem_r (mem_r (mem_r (mem_l (mem_strField.2 ⟨hm, rfl⟩))))))
  | enum hm => exact mem_l (mem_r (mem_r (mem_r (mem_r (mem_r (mem_l (mem_listField.2 ⟨hm, rfl⟩)))))))
  | const hm => exact mem_l (mem_r (mem_r (mem_r (mem_r (mem_r (mem_r (mem_l (mem_valField.2 ⟨hm, rfl⟩))))))))
  | multipleOfInt hm => exact mem_l (mem_r (mem_r (mem_r (mem_r (mem_r (mem_r (mem_r (mem_l (mem_numField.2 (.inl ⟨_, hm, rfl⟩))))))))))
  | multipleOfFloat hm => exact mem_l (mem_r (mem_r (mem_r (mem_r (mem_r (mem_r (mem_r (mem_l (mem_numField.2 (.inr ⟨_, hm, rfl⟩))))))))))
  | maximumInt hm => exact mem_l (mem_r (mem_r (mem_r (mem_r (mem_r (mem_r (mem_r (mem_r (mem_l (mem_numField.2 (.inl ⟨_, hm, rfl⟩)))))))))))
  | maximumFloat hm => exact mem_l (mem_r (mem_r (mem_r (mem_r (mem_r (mem_r (mem_r (mem_r (mem_l (mem_numField.2 (.inr ⟨_, hm, rfl⟩)))))))))))
  | minimumInt hm => exact mem_l (mem_r (mem_r (mem_r (mem_r (mem_r (mem_r (mem_r (mem_r (mem_r (mem_l (mem_numField.2 (.inl ⟨_, hm, rfl⟩))))))))))))
  | minimumFloat hm => exact mem_l (mem_r (mem_r (mem_r (mem_r (mem_r (mem_r (mem_r (mem_r (mem_r (mem_l (mem_numField.2 (.inr ⟨_, hm, rfl⟩))))))))))))
  | maxLength hm => exact mem_l (mem_r (mem_r (mem_r (mem_r (mem_r (mem_r (mem_r (mem_r (mem_r (mem_r (mem_l (mem_natField.2 ⟨_, hm, rfl⟩))))))))))))
  | minLength hm => exact mem_l (mem_r (mem_r (mem_r (mem_r (mem_r (mem_r (mem_r (mem_r (mem_r (mem_r (mem_r (mem_l (mem_natField.2 ⟨_, hm, rfl⟩)))))))))))))
  | pattern hm => exact mem_l (mem_r (mem_r (mem_r (mem_r (mem_r (mem_r (mem_r (mem_r (mem_r (mem_r (mem_r (mem_r (mem_l (mem_strField.2 ⟨hm, rfl⟩))))))))))))))
  | maxItems hm => exact mem_l (mem_r (mem_r (mem_r (mem_r (mem_r (mem_r (mem_r (mem_r (mem_r (mem_r (mem_r (mem_r (mem_r (mem_l (mem_natField.2 ⟨_, hm, rfl⟩)))))))))))))))
  | minItems hm => exact mem_l (mem_r (mem_r (mem_r (mem_r (mem_r (mem_r (mem_r (mem_r (mem_r (mem_r (mem_r (mem_r (mem_r (mem_r (mem_l (mem_natField.2 ⟨_, hm, rfl⟩))))))))))))))))
  | uniqueItems hm => exact mem_l (mem_r (mem_r (mem_r (mem_r (mem_r (mem_r (mem_r (mem_r (mem_r (mem_r (mem_r (mem_r (mem_r (mem_r (mem_r (mem_l (mem_boolField.2 ⟨_, hm, rfl⟩)))))))))))))))))
  | maxContains hm => exact mem_l (mem_r (mem_r (mem_r (mem_r (mem_r (mem_r (mem_r (mem_r (mem_r (mem_r (mem_r (mem_r (mem_r (mem_r (mem_r (mem_r (mem_l (mem_natField.2 ⟨_, hm, rfl⟩))))))))))))))))))
  | minContains hm => exact mem_l (mem_r (mem_r (mem_r (mem_r (mem_r (mem_r (mem_r (mem_r (mem_r (mem_r (mem_r (mem_r (mem_r (mem_r (mem_r (mem_r (mem_r (mem_l (mem_natField.2 ⟨_, hm, rfl⟩)))))))))))))))))))
  | maxProperties hm => exact mem_l (mem_r (mem_r (mem_r (mem_r (mem_r (mem_r (mem_r (mem_r (mem_r (mem_r (mem_r (mem_r (mem_r (mem_r (mem_r (mem_r (mem_r (mem_r (mem_l (mem_natField.2 ⟨_, hm, rfl⟩))))))))))))))))))))
  | minProperties hm => exact mem_l (mem_r (mem_r (mem_r (mem_r (mem_r (mem_r (mem_r (mem_r (mem_r (mem_r (mem_r (mem_r (mem_r (mem_r (mem_r (mem_r (mem_r (mem_r (mem_r (mem_l (mem_natField.2 ⟨_, hm, rfl⟩)))))))))))))))))))))
  | required hm => exact mem_l (mem_r (mem_r (mem_r (mem_r (mem_r (mem_r (mem_r (mem_r (mem_r (mem_r (mem_r (mem_r (mem_r (mem_r (mem_r (mem_r (mem_r (mem_r (mem_r (mem_r (mem_l (mem_listField.2 ⟨fun hn => hm (List.map_eq_nil_iff.1 hn), rfl⟩))))))))))))))))))))))
  | contentEncoding hm => exact mem_l (mem_r (mem_r (mem_r (mem_r (mem_r (mem_r (mem_r (mem_r (mem_r (mem_r (mem_r (mem_r (mem_r (mem_r (mem_r (mem_r (mem_r (mem_r (mem_r (mem_r (mem_r (mem_l (mem_strField.2 ⟨hm, rfl⟩)))))))))))))))))))))))
  | contentMediaType hm => exact mem_l (mem_r (mem_r (mem_r (mem_r (mem_r (mem_r (mem_r (mem_r (mem_r (mem_r (mem_r (mem_r (mem_r (mem_r (mem_r (mem_r (mem_r (mem_r (mem_r (mem_r (mem_r (mem_r (mem_l (mem_strField.2 ⟨hm, rfl⟩))))))))))))))))))))))))
  | format hm => exact mem_l (mem_r (mem_r (mem_r (mem_r (mem_r (mem_r (mem_r (mem_r (mem_r (mem_r (mem_r (mem_r (mem_r (mem_r (mem_r (mem_r (mem_r (mem_r (mem_r (mem_r (mem_r (mem_r (mem_r (mem_l (mem_strField.2 ⟨hm, rfl⟩)))))))))))))))))))))))))
  | title hm => exact mem_l (mem_r (mem_r (mem_r (mem_r (mem_r (mem_r (mem_r (mem_r (mem_r (mem_r (mem_r (mem_r (mem_r (mem_r (mem_r (mem_r (mem_r (mem_r (mem_r (mem_r (mem_r (mem_r (mem_r (mem_r (mem_l (mem_strField.2 ⟨hm, rfl⟩))))))))))))))))))))))))))
  | description hm => exact mem_l (mem_r (mem_r (mem_r (mem_r (mem_r (mem_r (mem_r (mem_r (mem_r (mem_r (mem_r (mem_r (mem_r (mem_r (mem_r (mem_r (mem_r (mem_r (mem_r (mem_r (mem_r (mem_r (mem_r (mem_r (mem_r (mem_l (mem_strField.2 ⟨hm, rfl⟩)))))))))))))))))))))))))))
  | default hm => exact mem_l (mem_r (mem_r (mem_r (mem_r (mem_r (mem_r (mem_r (mem_r (mem_r (mem_r (mem_r (mem_r (mem_r (mem_r (mem_r (mem_r (mem_r (mem_r (mem_r (mem_r (mem_r (mem_r (mem_r (mem_r (mem_r (mem_r (mem_l (mem_valField.2 ⟨hm, rfl⟩))))))))))))))))))))))))))))
  | examples hm => exact mem_l (mem_r (mem_r (mem_r (mem_r (mem_r (mem_r (mem_r (mem_r (mem_r (mem_r (mem_r (mem_r (mem_r (mem_r (mem_r (mem_r (mem_r (mem_r (mem_r (mem_r (mem_r (mem_r (mem_r (mem_r (mem_r (mem_r (mem_r (mem_l (mem_listField.2 ⟨hm, rfl⟩)))))))))))))))))))))))))))))
  | additionalProperties hm => exact mem_l (mem_r (mem_r (mem_r (mem_r (mem_r (mem_r (mem_r (mem_r (mem_r (mem_r (mem_r (mem_r (mem_r (mem_r (mem_r (mem_r (mem_r (mem_r (mem_r (mem_r (mem_r (mem_r (mem_r (mem_r (mem_r (mem_r (mem_r (mem_r (mem_boolField.2 ⟨_, hm, rfl⟩)))))))))))))))))))))))))))))
  | definitions hm => exact (mem_r (mem_l (mem_mapField.2 (by rw [mapEntries_eq]; exact ⟨fun hn => hm (List.map_eq_nil_iff.1 hn), rfl⟩))))
  | allOf hm => exact (mem_r (mem_r (mem_l (mem_listField.2 (by rw [mapList_eq]; exact ⟨fun hn => hm (List.map_eq_nil_iff.1 hn), rfl⟩)))))
  | anyOf hm => exact (mem_r (mem_r (mem_r (mem_l (mem_listField.2 (by rw [mapList_eq]; exact ⟨fun hn => hm (List.map_eq_nil_iff.1 hn), rfl⟩))))))
  | oneOf hm => exact (mem_r (mem_r (mem_r (mem_r (mem_l (mem_listField.2 (by rw [mapList_eq]; exact ⟨fun hn => hm (List.map_eq_nil_iff.1 hn), rfl⟩)))))))
  | not_ hm => exact (mem_r (mem_r (mem_r (mem_r (mem_r (mem_l (mem_valField.2 ⟨fun hn => hm (mapOpt_nil.1 hn), rfl⟩)))))))
  | if_ hm => exact (mem_r (mem_r (mem_r (mem_r (mem_r (mem_r (mem_l (mem_valField.2 ⟨fun hn => hm (mapOpt_nil.1 hn), rfl⟩))))))))
  | then_ hm => exact (mem_r (mem_r (mem_r (mem_r (mem_r (mem_r (mem_r (mem_l (mem_valField.2 ⟨fun hn => hm (mapOpt_nil.1 hn), rfl⟩)))))))))
  | else_ hm => exact (mem_r (mem_r (mem_r (mem_r (mem_r (mem_r (mem_r (mem_r (mem_l (mem_valField.2 ⟨fun hn => hm (mapOpt_nil.1 hn), rfl⟩))))))))))
  | items hm => exact (mem_r (mem_r (mem_r (mem_r (mem_r (mem_r (mem_r (mem_r (mem_r (mem_l (mem_valField.2 ⟨fun hn => hm (mapOpt_nil.1 hn), rfl⟩)))))))))))
  | properties he hm => cases he; exact (mem_r (mem_r (mem_r (mem_r (mem_r (mem_r (mem_r (mem_r (mem_r (mem_r (mem_l (mem_mapField.2 (by rw [mapMap_eq]; exact ⟨fun hn => hm (List.map_eq_nil_iff.1 hn), rfl⟩)))))))))))))
  | patternProperties he hm => cases he; exact (mem_r (mem_r (mem_r (mem_r (mem_r (mem_r (mem_r (mem_r (mem_r (mem_r (mem_r (mem_l (mem_mapField.2 (by rw [mapMap_eq]; exact ⟨fun hn => hm (List.map_eq_nil_iff.1 hn), rfl⟩))))))))))))))
  | propertyNames hm => exact (mem_r (mem_r (mem_r (mem_r (mem_r (mem_r (mem_r (mem_r (mem_r (mem_r (mem_r (mem_r (mem_l (mem_valField.2 ⟨fun hn => hm (mapOpt_nil.1 hn), rfl⟩))))))))))))))
  | annotations he hm => cases he; exact (mem_r (mem_r (mem_r (mem_r (mem_r (mem_r (mem_r (mem_r (mem_r (mem_r (mem_r (mem_r (mem_r (mem_l (mem_mapField.2 ⟨hm, rfl⟩)))))))))))))))
  | facetDefinitions he hm => cases he; exact (mem_r (mem_r (mem_r (mem_r (mem_r (mem_r (mem_r (mem_r (mem_r (mem_r (mem_r (mem_r (mem_r (mem_r (mem_l (mem_mapField.2 (by rw [mapMap_eq]; exact ⟨fun hn => hm (List.map_eq_nil_iff.1 hn), rfl⟩)))))))))))))))))
  | facetData he hm => cases he; exact (mem_r (mem_r (mem_r (mem_r (mem_r (mem_r (mem_r (mem_r (mem_r (mem_r (mem_r (mem_r (mem_r (mem_r (mem_r (mem_mapField.2 ⟨hm, rfl⟩))))))))))))))))

theorem mem_field_key {k : String} {a : List (String × GoVal)} (h : (a.map (·.1)).Sublist [k]) : ∀ p ∈ a, p.1 = k :=
  fun p hp => by simpa using h.subset (List.mem_map.2 ⟨p, hp, rfl⟩)

theorem fields_keys {ks : List String} {cs : List (List (String × GoVal))} (h : List.Forall₂ (fun k a => ∀ p ∈ a, p.1 = k) ks cs) :
    ∀ p ∈ cs.flatten, p.1 ∈ ks := by
  induction h with
  | nil => intro p hp; cases hp
  | cons h1 _ ih =>
    intro p hp
    rcases List.mem_append.1 (List.flatten_cons ▸ hp) with hp | hp
    · exact List.mem_cons.2 (.inl (h1 p hp))
    · exact List.mem_cons.2 (.inr (ih p hp))

/-- Fields with distinct keys, put one after another, can be told apart. -/
theorem fields_inj : ∀ {ks : List String} {as bs : List (List (String × GoVal))}, ks.Nodup →
    List.Forall₂ (fun k a => ∀ p ∈ a, p.1 = k) ks as → List.Forall₂ (fun k a => ∀ p ∈ a, p.1 = k) ks bs →
    as.flatten = bs.flatten → as = bs
  | [], _, _, _, .nil, .nil, _ => rfl
  | k :: ks, a :: as, b :: bs, hn, .cons ha has, .cons hb hbs, h => by
    obtain ⟨hk, hn⟩ := List.nodup_cons.1 hn
    have keep : ∀ {c : List (String × GoVal)}, (∀ p ∈ c, p.1 = k) → c.filter (fun p => p.1 = k) = c := fun hc =>
      List.filter_eq_self.2 fun p hp => by simpa using hc p hp
    have drop : ∀ {cs : List (List (String × GoVal))}, List.Forall₂ (fun k a => ∀ p ∈ a, p.1 = k) ks cs →
        cs.flatten.filter (fun p => p.1 = k) = [] := fun hcs =>
      List.filter_eq_nil_iff.2 fun p hp he => hk ((of_decide_eq_true he) ▸ fields_keys hcs p hp)
    rw [List.flatten_cons, List.flatten_cons] at h
    have hab : a = b := by
      have := congrArg (List.filter fun p => p.1 = k) h
      rwa [List.filter_append, List.filter_append, keep ha, keep hb, drop has, drop hbs, List.append_nil, List.append_nil] at this
    subst hab
    rw [fields_inj hn has hbs (List.append_cancel_left h)]

theorem strField_inj {k a b : String} (h : strField k a = strField k b) : a = b := by
  unfold strField at h
  split at h <;> split at h <;> simp_all

theorem listField_inj {k : String} {a b : List GoVal} (h : listField k a = listField k b) : a = b := by
  have hm : ∀ p, (a ≠ [] ∧ p = (k, GoVal.arr a)) ↔ (b ≠ [] ∧ p = (k, GoVal.arr b)) := fun p => by
    rw [← mem_listField, ← mem_listField, h]
  by_cases ha : a = []
  · by_cases hb : b = []
    · rw [ha, hb]
    · exact absurd ha ((hm (k, GoVal.arr b)).2 ⟨hb, rfl⟩).1
  · exact GoVal.arr.inj (Prod.mk.inj ((hm (k, GoVal.arr a)).1 ⟨ha, rfl⟩).2).2

theorem mapField_inj {k : String} {a b : List (String × GoVal)} (h : mapField k a = mapField k b) : a = b := by
  have hm : ∀ p, (a ≠ [] ∧ p = (k, GoVal.map a)) ↔ (b ≠ [] ∧ p = (k, GoVal.map b)) := fun p => by
    rw [← mem_mapField, ← mem_mapField, h]
  by_cases ha : a = []
  · by_cases hb : b = []
    · rw [ha, hb]
    · exact absurd ha ((hm (k, GoVal.map b)).2 ⟨hb, rfl⟩).1
  · exact GoVal.map.inj (Prod.mk.inj ((hm (k, GoVal.map a)).1 ⟨ha, rfl⟩).2).2

theorem valField_inj {k : String} {a b : GoVal} (h : valField k a = valField k b) : a = b := by
  have hm : ∀ p, (a ≠ .nil ∧ p = (k, a)) ↔ (b ≠ .nil ∧ p = (k, b)) := fun p => by
    rw [← mem_valField, ← mem_valField, h]
  by_cases ha : a = .nil
  · by_cases hb : b = .nil
    · rw [ha, hb]
    · exact absurd ha ((hm (k, b)).2 ⟨hb, rfl⟩).1
  · exact (Prod.mk.inj ((hm (k, a)).1 ⟨ha, rfl⟩).2).2

theorem natField_inj {k : String} {a b : Option Nat} (h : natField k a = natField k b) : a = b := by
  cases a <;> cases b <;> simp_all [natField] <;> exact_mod_cast h

theorem boolField_inj {k : String} {a b : Option Bool} (h : boolField k a = boolField k b) : a = b := by
  cases a <;> cases b <;> simp_all [boolField]

theorem numField_inj {k : String} {a b : Option JNum} (h : numField k a = numField k b) : a = b := by
  cases a with
  | none => cases b <;> simp_all [numField]
  | some a =>
    cases b with
    | none => simp_all [numField]
    | some b => cases a <;> cases b <;> simp_all [numField, JNum.val]

def keywordList : List String := ["$schema", "$id", "$ref", "$comment", "type", "enum", "const", "multipleOf", "maximum", "minimum", "maxLength", "minLength", "pattern", "maxItems", "minItems", "uniqueItems", "maxContains", "minContains", "maxProperties", "minProperties", "required", "contentEncoding", "contentMediaType", "format", "title", "description", "default", "examples", "additionalProperties", "definitions", "allOf", "anyOf", "oneOf", "not", "if", "then", "else", "items", "properties", "patternProperties", "propertyNames", "x-annotations", "x-facet-definitions", "x-facet-data"]

def fieldList : JS → List (List (String × GoVal))
  | .mk core ds al an on n i t e it pn ps pps anns fds fd => [strField "$schema" core.version, strField "$id" core.id, strField "$ref" core.ref, strField "$comment" core.comment, strField "type" core.type, listField "enum" core.enum, valField "const" core.const, numField "multipleOf" core.multipleOf, numField "maximum" core.maximum, numField "minimum" core.minimum, natField "maxLength" core.maxLength, natField "minLength" core.minLength, strField "pattern" core.pattern, natField "maxItems" core.maxItems, natField "minItems" core.minItems, boolField "uniqueItems" core.uniqueItems, natField "maxContains" core.maxContains, natField "minContains" core.minContains, natField "maxProperties" core.maxProperties, natField "minProperties" core.minProperties, listField "required" (core.required.map .str), strField "contentEncoding" core.contentEncoding, strField "contentMediaType" core.contentMediaType, strField "format" core.format, strField "title" core.title, strField "description" core.description, valField "default" core.default, listField "examples" core.examples, boolField "additionalProperties" core.additionalProperties, mapField "definitions" (mapEntries ds), listField "allOf" (mapList al), listField "anyOf" (mapList an), listField "oneOf" (mapList on), valField "not" (mapOpt n), valField "if" (mapOpt i), valField "then" (mapOpt t), valField "else" (mapOpt e), valField "items" (mapOpt it), mapField "properties" (mapMap ps), mapField "patternProperties" (mapMap pps), valField "propertyNames" (mapOpt pn), mapField "x-annotations" (anns.getD []), mapField "x-facet-definitions" (mapMap fds), mapField "x-facet-data" (fd.getD [])]

theorem fieldList_flatten (s : JS) : (fieldList s).flatten = s.toMap := by
  obtain ⟨core, ds, al, an, on, n, i, t, e, it, pn, ps, pps, anns, fds, fd⟩ := s
  rw [JS.toMap, JSCore.fields, fieldList]
  simp only [List.flatten_cons, List.flatten_nil, List.append_nil, List.append_assoc]

theorem fieldList_keys (s : JS) : List.Forall₂ (fun k a => ∀ p ∈ a, p.1 = k) keywordList (fieldList s) := by
  obtain ⟨core, ds, al, an, on, n, i, t, e, it, pn, ps, pps, anns, fds, fd⟩ := s
  rw [keywordList, fieldList]
  repeat' (first | exact .nil | refine .cons (mem_field_key ?_) ?_)
  all_goals first | exact strField_keys | exact listField_keys | exact valField_keys | exact numField_keys | exact natField_keys | exact boolField_keys | exact mapField_keys

theorem forall₂_of_map {α β γ : Type} {f : α → γ} {g : β → γ} : ∀ {l : List α} {m : List β}, l.map f = m.map g →
    List.Forall₂ (fun x y => f x = g y) l m
  | [], [], _ => .nil
  | [], _ :: _, h => by simp at h
  | _ :: _, [], h => by simp at h
  | x :: l, y :: m, h => by
    rw [List.map_cons, List.map_cons, List.cons.injEq] at h
    exact .cons h.1 (forall₂_of_map h.2)

theorem forall₂_entries {l m : List (String × Option JS)} (h : (l.map fun e => (e.1, mapOpt e.2)) = m.map fun e => (e.1, mapOpt e.2)) :
    List.Forall₂ (fun x y => x.1 = y.1 ∧ mapOpt x.2 = mapOpt y.2) l m :=
  (forall₂_of_map h).imp fun _ _ h => Prod.mk.inj h

theorem core_ext {a b : JSCore} (h0 : a.version = b.version) (h1 : a.id = b.id) (h2 : a.ref = b.ref) (h3 : a.comment = b.comment) (h4 : a.additionalProperties = b.additionalProperties) (h5 : a.type = b.type) (h6 : a.enum = b.enum) (h7 : a.const = b.const) (h8 : a.multipleOf = b.multipleOf) (h9 : a.maximum = b.maximum) (h10 : a.minimum = b.minimum) (h11 : a.maxLength = b.maxLength) (h12 : a.minLength = b.minLength) (h13 : a.pattern = b.pattern) (h14 : a.maxItems = b.maxItems) (h15 : a.minItems = b.minItems) (h16 : a.uniqueItems = b.uniqueItems) (h17 : a.maxContains = b.maxContains) (h18 : a.minContains = b.minContains) (h19 : a.maxProperties = b.maxProperties) (h20 : a.minProperties = b.minProperties) (h21 : a.required = b.required) (h22 : a.contentEncoding = b.contentEncoding) (h23 : a.contentMediaType = b.contentMediaType) (h24 : a.format = b.format) (h25 : a.title = b.title) (h26 : a.description = b.description) (h27 : a.default = b.default) (h28 : a.examples = b.examples) : a = b := by
  cases a; cases b; simp_all

theorem required_inj {a b : List String} (h : a.map GoVal.str = b.map GoVal.str) : a = b :=
  List.map_injective_iff.2 (fun _ _ h => GoVal.str.inj h) h

theorem sameKeywords_of_toMap {s t : JS} (h : s.toMap = t.toMap) : SameKeywords (fun x y => mapOpt x = mapOpt y) s t := by
  have hf := fields_inj (by decide) (fieldList_keys s) (fieldList_keys t) (by rw [fieldList_flatten, fieldList_flatten, h])
  obtain ⟨core, ds, al, an, on, n, i, th, e, it, pn, ps, pps, anns, fds, fd⟩ := s
  obtain ⟨core', ds', al', an', on', n', i', t', e', it', pn', ps', pps', anns', fds', fd'⟩ := t
  simp only [fieldList, List.cons.injEq] at hf
  obtain ⟨h0, h1, h2, h3, h4, h5, h6, h7, h8, h9, h10, h11, h12, h13, h14, h15, h16, h17, h18, h19, h20, h21, h22, h23, h24, h25, h26, h27, h28, h29, h30, h31, h32, h33, h34, h35, h36, h37, h38, h39, h40, h41, h42, h43, _⟩ := hf
  refine ⟨core_ext (strField_inj h0) (strField_inj h1) (strField_inj h2) (strField_inj h3) (boolField_inj h28) (strField_inj h4) (listField_inj h5) (valField_inj h6) (numField_inj h7) (numField_inj h8) (numField_inj h9) (natField_inj h10) (natField_inj h11) (strField_inj h12) (natField_inj h13) (natField_inj h14) (boolField_inj h15) (natField_inj h16) (natField_inj h17) (natField_inj h18) (natField_inj h19) (required_inj (listField_inj h20)) (strField_inj h21) (strField_inj h22) (strField_inj h23) (strField_inj h24) (strField_inj h25) (valField_inj h26) (listField_inj h27),
    forall₂_entries (mapEntries_eq ds ▸ mapEntries_eq ds' ▸ mapField_inj h29),
    forall₂_of_map (mapList_eq al ▸ mapList_eq al' ▸ listField_inj h30), forall₂_of_map (mapList_eq an ▸ mapList_eq an' ▸ listField_inj h31),
    forall₂_of_map (mapList_eq on ▸ mapList_eq on' ▸ listField_inj h32), valField_inj h33, valField_inj h34, valField_inj h35,
    valField_inj h36, valField_inj h37, valField_inj h40, forall₂_entries (mapMap_eq ps ▸ mapMap_eq ps' ▸ mapField_inj h38),
    forall₂_entries (mapMap_eq pps ▸ mapMap_eq pps' ▸ mapField_inj h39), mapField_inj h41,
    forall₂_entries (mapMap_eq fds ▸ mapMap_eq fds' ▸ mapField_inj h42), mapField_inj h43⟩

end GoRaml
