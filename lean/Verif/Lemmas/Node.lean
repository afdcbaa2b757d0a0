import Verif.Spec.Node
import Verif.Model.Node
import Verif.Lemmas.OMap
import Mathlib.Tactic

/-!
# Conversion of YAML trees
-/

namespace GoRaml

open Spec

theorem Out.bind_ok' {α β : Type} {o : Out α} {f : α → Out β} {b : β} :
    o.bind f = .ok b ↔ ∃ a, o = .ok a ∧ f a = .ok b := by
  cases o <;> simp [Out.bind]

theorem OMap.keys_set {α : Type} (m : OMap α) (k : String) (v : α) :
    (OMap.set m k v).map (·.1) = if k ∈ m.map (·.1) then m.map (·.1) else m.map (·.1) ++ [k] := by
  induction m with
  | nil => simp [OMap.set]
  | cons e m ih =>
    obtain ⟨k1, v1⟩ := e
    simp only [OMap.set]
    by_cases h : k1 = k
    · subst h; simp
    · rw [if_neg h]
      simp only [List.map_cons, ih, List.mem_cons, Ne.symm h, false_or]
      split <;> simp

theorem OMap.mem_iff_get {α : Type} {m : OMap α} (hn : (m.map (·.1)).Nodup) (k : String) (v : α) :
    (k, v) ∈ m ↔ OMap.get m k = some v := by
  induction m with
  | nil => simp [OMap.get]
  | cons e m ih =>
    obtain ⟨k1, v1⟩ := e
    simp only [List.map_cons, List.nodup_cons] at hn
    simp only [OMap.get, List.mem_cons, Prod.mk.injEq]
    by_cases h : k1 = k
    · subst h
      rw [if_pos rfl]
      constructor
      · rintro (⟨-, rfl⟩ | h2)
        · rfl
        · exact absurd (List.mem_map.2 ⟨_, h2, rfl⟩) hn.1
      · intro h2; left; exact ⟨rfl, by injection h2 with h2; exact h2.symm⟩
    · rw [if_neg h, ih hn.2]
      constructor
      · rintro (⟨h2, -⟩ | h2)
        · exact absurd h2.symm h
        · exact h2
      · exact Or.inr

theorem Spec.IsMapOf.nil {α : Type} : IsMapOf ([] : List (String × α)) [] :=
  ⟨by simp, by simp⟩

theorem Spec.IsMapOf.snoc {α : Type} {l m : List (String × α)} (h : IsMapOf l m) (k : String) (v : α) :
    IsMapOf (l ++ [(k, v)]) (OMap.set m k v) := by
  have hn : ((OMap.set m k v).map (·.1)).Nodup := by
    rw [OMap.keys_set]
    split
    · exact h.nodup
    · rename_i h2
      rw [List.nodup_append]
      refine ⟨h.nodup, by simp, ?_⟩
      intro a ha b hb; simp at hb; subst hb; rintro rfl; exact h2 ha
  refine ⟨hn, ?_⟩
  intro k' v'
  rw [OMap.mem_iff_get hn, OMap.get_set]
  by_cases hk : k' = k
  · subst hk
    rw [if_pos rfl]
    constructor
    · intro h2; injection h2 with h2; subst h2; exact ⟨l, [], by simp, by simp⟩
    · rintro ⟨pre, post, h1, h2⟩
      cases post using List.reverseRecOn with
      | nil =>
        have := List.append_inj' h1 (by simp)
        simp at this
        rw [this.2]
      | append_singleton post x _ =>
        have h3 : l ++ [(k', v)] = (pre ++ (k', v') :: post) ++ [x] := by simpa using h1
        have := List.append_inj' h3 (by simp)
        simp at this
        exact absurd (by simp [← this.2]) h2
  · rw [if_neg hk, ← OMap.mem_iff_get h.nodup, h.last]
    constructor
    · rintro ⟨pre, post, rfl, h2⟩
      exact ⟨pre, post ++ [(k, v)], by simp, by simpa [hk] using h2⟩
    · rintro ⟨pre, post, h1, h2⟩
      cases post using List.reverseRecOn with
      | nil =>
        have := List.append_inj' h1 (by simp)
        simp at this
        exact absurd this.2.1.symm hk
      | append_singleton post x _ =>
        have h3 : l ++ [(k, v)] = (pre ++ (k', v') :: post) ++ [x] := by simpa using h1
        have := List.append_inj' h3 (by simp)
        refine ⟨pre, post, this.1, ?_⟩
        simp at h2 ⊢
        exact h2.1

/-- The scalars YAML itself decodes. -/
def LitOf (E : Env) (n : YNode) (v : GoVal) : Prop := E.decodeAny n = some v

theorem orErr_ok {α : Type} {m : String} {o : Option α} {a : α} : orErr m o = .ok a ↔ o = some a := by
  cases o <;> simp [orErr]

theorem scalar_eq (E : Env) (inc : String → Out GoVal) (tag value : String) (content : List YNode) :
    scalarNodeToDataNode E inc (.mk .scalar tag value content) =
      if tag = "!!str" then .ok (.str value)
      else if tag = "!!timestamp" then .ok (.str value)
      else if tag = "!include" then inc value
      else orErr "decode scalar node" (E.decodeAny (.mk .scalar tag value content)) := rfl

theorem scalar_ok {E : Env} {inc : String → Out GoVal} {tag value : String} {content : List YNode} {v : GoVal} :
    scalarNodeToDataNode E inc (.mk .scalar tag value content) = .ok v →
      Denotes (LitOf E) (fun p v => inc p = .ok v) (.mk .scalar tag value content) v := by
  rw [scalar_eq]
  intro h
  split at h
  · rename_i h1; injection h with h; subst h; exact .text _ _ _ (Or.inl h1)
  split at h
  · rename_i h1; injection h with h; subst h; exact .text _ _ _ (Or.inr h1)
  split at h
  · rename_i h1; subst h1; exact .include _ _ _ h
  · rename_i h1 h2 h3
    exact .scalar _ _ _ _ (by simp [h1, h2, h3]) (orErr_ok.1 h)

mutual

theorem convert_ok {E : Env} {inc : String → Out GoVal} : ∀ (n : YNode) (v : GoVal),
    yamlNodeToDataNode E inc n = .ok v → Denotes (LitOf E) (fun p v => inc p = .ok v) n v
  | .mk kind tag value content, v, h => by
    unfold yamlNodeToDataNode at h
    cases kind with
    | zero => simp at h
    | «alias» => simp at h
    | document =>
      cases content with
      | nil => simp [yamlFirstToDataNode] at h
      | cons n rest =>
        simp only [yamlFirstToDataNode] at h
        exact .document _ _ _ _ _ (convert_ok n v h)
    | scalar => exact scalar_ok h
    | mapping =>
      simp only at h
      split at h
      · cases h
      · rename_i hl
        obtain ⟨vs, m, rfl, h1, h2⟩ := convertPairs_ok content [] v h
        exact .mapping _ _ _ vs m (by omega) h1 (h2 [] .nil)
    | sequence =>
      obtain ⟨vs, rfl, h1⟩ := convertItems_ok content [] v h
      exact .sequence _ _ _ _ h1

theorem convertPairs_ok {E : Env} {inc : String → Out GoVal} : ∀ (l : List YNode) (m0 : List (String × GoVal)) (v : GoVal),
    yamlPairsToDataNode E inc l m0 = .ok v → ∃ vs m, v = .map m ∧
      List.Forall₂ (Denotes (LitOf E) (fun p v => inc p = .ok v)) (mapValues l) vs ∧
      ∀ l0, IsMapOf l0 m0 → IsMapOf (l0 ++ (mapKeys l).zip vs) m
  | [], m0, v, h => by
    simp only [yamlPairsToDataNode] at h; injection h with h; subst h
    exact ⟨[], m0, rfl, .nil, by simp [mapKeys]⟩
  | [_], m0, v, h => by
    simp only [yamlPairsToDataNode] at h; injection h with h; subst h
    exact ⟨[], m0, rfl, .nil, by simp [mapKeys]⟩
  | k :: x :: rest, m0, v, h => by
    simp only [yamlPairsToDataNode] at h
    obtain ⟨d, h1, h2⟩ := Out.bind_ok'.1 h
    have i1 := convert_ok x d h1
    obtain ⟨vs, m, e, i2, i3⟩ := convertPairs_ok rest _ v h2
    refine ⟨d :: vs, m, e, .cons i1 i2, ?_⟩
    intro l0 h0
    have := i3 _ (h0.snoc k.value d)
    simpa [mapKeys] using this

theorem convertItems_ok {E : Env} {inc : String → Out GoVal} : ∀ (l : List YNode) (acc : List GoVal) (v : GoVal),
    yamlItemsToDataNode E inc l acc = .ok v → ∃ vs, v = .arr (acc ++ vs) ∧
      List.Forall₂ (Denotes (LitOf E) (fun p v => inc p = .ok v)) l vs
  | [], acc, v, h => by
    simp only [yamlItemsToDataNode] at h; injection h with h; subst h
    exact ⟨[], by simp, .nil⟩
  | x :: rest, acc, v, h => by
    simp only [yamlItemsToDataNode] at h
    obtain ⟨d, h1, h2⟩ := Out.bind_ok'.1 h
    obtain ⟨vs, e, i2⟩ := convertItems_ok rest _ v h2
    exact ⟨d :: vs, by simp [e], .cons (convert_ok x d h1) i2⟩

end

theorem scalar_readable {E : Env} {inc : String → Out GoVal} {tag value : String} {content : List YNode}
    (hr : Readable (LitOf E) (fun p v => inc p = .ok v) (.mk .scalar tag value content)) :
    ∃ v, scalarNodeToDataNode E inc (.mk .scalar tag value content) = .ok v := by
  rw [scalar_eq]
  simp only [YNode.tag, YNode.value, Readable, YNode.kind] at hr
  split
  · exact ⟨_, rfl⟩
  split
  · exact ⟨_, rfl⟩
  split
  · rename_i h1 h2 h3
    rcases hr with h | h | ⟨-, v, hv⟩ | ⟨h4, -⟩
    · exact absurd h h1
    · exact absurd h h2
    · exact ⟨v, hv⟩
    · simp [h3] at h4
  · rename_i h1 h2 h3
    simp only [h1, h2, h3, false_or, false_and] at hr
    obtain ⟨-, v, hv⟩ := hr
    exact ⟨v, orErr_ok.2 hv⟩

mutual

theorem convert_total {E : Env} {inc : String → Out GoVal} : ∀ (n : YNode),
    (∀ m, NodePart n m → Readable (LitOf E) (fun p v => inc p = .ok v) m) → ∃ v, yamlNodeToDataNode E inc n = .ok v
  | .mk kind tag value content, h => by
    have h0 := h _ (.refl _)
    unfold yamlNodeToDataNode
    cases kind with
    | zero => simp [Readable, YNode.kind] at h0
    | «alias» => simp [Readable, YNode.kind] at h0
    | document =>
      cases content with
      | nil => simp [Readable, YNode.kind, YNode.content] at h0
      | cons n rest =>
        simp only [yamlFirstToDataNode]
        exact convert_total n fun m hm => h m (.document _ _ _ _ _ hm)
    | scalar => exact scalar_readable h0
    | mapping =>
      simp only [Readable, YNode.kind, YNode.content] at h0
      simp only [h0, ne_eq, not_true_eq_false, if_false]
      exact convertPairs_total content [] fun n hn m hm => h m (.mapping _ _ _ n m hn hm)
    | sequence => exact convertItems_total content [] fun n hn m hm => h m (.sequence _ _ _ n m hn hm)

theorem convertPairs_total {E : Env} {inc : String → Out GoVal} : ∀ (l : List YNode) (m0 : List (String × GoVal)),
    (∀ n ∈ mapValues l, ∀ m, NodePart n m → Readable (LitOf E) (fun p v => inc p = .ok v) m) →
      ∃ v, yamlPairsToDataNode E inc l m0 = .ok v
  | [], m0, _ => ⟨_, by simp only [yamlPairsToDataNode]; rfl⟩
  | [_], m0, _ => ⟨_, by simp only [yamlPairsToDataNode]; rfl⟩
  | k :: x :: rest, m0, h => by
    simp only [yamlPairsToDataNode]
    obtain ⟨d, hd⟩ := convert_total x (h x (by simp [mapValues]))
    rw [hd]
    simp only [Out.bind]
    exact convertPairs_total rest _ fun n hn => h n (by simp [mapValues, hn])

theorem convertItems_total {E : Env} {inc : String → Out GoVal} : ∀ (l : List YNode) (acc : List GoVal),
    (∀ n ∈ l, ∀ m, NodePart n m → Readable (LitOf E) (fun p v => inc p = .ok v) m) →
      ∃ v, yamlItemsToDataNode E inc l acc = .ok v
  | [], acc, _ => ⟨_, by simp only [yamlItemsToDataNode]; rfl⟩
  | x :: rest, acc, h => by
    simp only [yamlItemsToDataNode]
    obtain ⟨d, hd⟩ := convert_total x (h x (by simp))
    rw [hd]
    simp only [Out.bind]
    exact convertItems_total rest _ fun n hn => h n (by simp [hn])

end

/-- A node with a value consists of readable parts. -/
theorem denotes_readable {lit : YNode → GoVal → Prop} {inc : String → GoVal → Prop} {n m : YNode} (hp : NodePart n m) :
    ∀ {v}, Denotes lit inc n v → Readable lit inc m := by
  induction hp with
  | refl n =>
    intro v h
    cases h with
    | document => simp [Readable, YNode.kind, YNode.content]
    | text tag value content ht => rcases ht with rfl | rfl <;> simp [Readable, YNode.kind, YNode.tag]
    | «include» value content v hi => simp [Readable, YNode.kind, YNode.tag, YNode.value]; exact ⟨v, hi⟩
    | scalar tag value content v ht hl =>
      simp only [Readable, YNode.kind, YNode.tag]
      exact Or.inr (Or.inr (Or.inr ⟨ht, v, hl⟩))
    | sequence => simp [Readable, YNode.kind]
    | mapping tag value content vs m hl => simpa [Readable, YNode.kind, YNode.content] using hl
  | document tag value n rest m hp ih => intro v h; cases h with | document _ _ _ _ _ h => exact ih h
  | sequence tag value content n m hn hp ih =>
    intro v h
    cases h with
    | sequence _ _ _ vs h =>
      obtain ⟨i, hi, rfl⟩ := List.getElem_of_mem hn
      exact ih (h.get hi (h.length_eq ▸ hi))
  | mapping tag value content n m hn hp ih =>
    intro v h
    cases h with
    | mapping _ _ _ vs m' hl h _ =>
      obtain ⟨i, hi, rfl⟩ := List.getElem_of_mem hn
      exact ih (h.get hi (h.length_eq ▸ hi))

mutual

theorem convert_diverge {E : Env} {inc : String → Out GoVal} (hi : ∀ p, inc p ≠ .diverge) :
    ∀ (n : YNode), yamlNodeToDataNode E inc n ≠ .diverge
  | .mk kind tag value content => by
    unfold yamlNodeToDataNode
    cases kind with
    | zero => simp
    | «alias» => simp
    | document =>
      cases content with
      | nil => simp [yamlFirstToDataNode]
      | cons n rest => simp only [yamlFirstToDataNode]; exact convert_diverge hi n
    | scalar =>
      simp only [scalar_eq]
      split_ifs
      · simp
      · simp
      · exact hi _
      · cases E.decodeAny (.mk .scalar tag value content) <;> simp [orErr]
    | mapping =>
      simp only
      split_ifs
      · simp
      · exact convertPairs_diverge hi content []
    | sequence => exact convertItems_diverge hi content []

theorem convertPairs_diverge {E : Env} {inc : String → Out GoVal} (hi : ∀ p, inc p ≠ .diverge) :
    ∀ (l : List YNode) (m0 : List (String × GoVal)), yamlPairsToDataNode E inc l m0 ≠ .diverge
  | [], m0 => by simp [yamlPairsToDataNode]
  | [_], m0 => by simp [yamlPairsToDataNode]
  | k :: x :: rest, m0 => by
    simp only [yamlPairsToDataNode]
    have h1 := convert_diverge (E := E) hi x
    cases h : yamlNodeToDataNode E inc x with
    | ok d => simp only [Out.bind]; exact convertPairs_diverge hi rest _
    | err => simp [Out.bind]
    | panic => simp [Out.bind]
    | diverge => exact absurd h h1

theorem convertItems_diverge {E : Env} {inc : String → Out GoVal} (hi : ∀ p, inc p ≠ .diverge) :
    ∀ (l : List YNode) (acc : List GoVal), yamlItemsToDataNode E inc l acc ≠ .diverge
  | [], acc => by simp [yamlItemsToDataNode]
  | x :: rest, acc => by
    simp only [yamlItemsToDataNode]
    have h1 := convert_diverge (E := E) hi x
    cases h : yamlNodeToDataNode E inc x with
    | ok d => simp only [Out.bind]; exact convertItems_diverge hi rest _
    | err => simp [Out.bind]
    | panic => simp [Out.bind]
    | diverge => exact absurd h h1

end

end GoRaml
