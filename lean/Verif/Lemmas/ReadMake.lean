import Verif.Lemmas.ReadFacets
import Verif.Lemmas.Node

/-!
# Decoding fidelity: `makeConcrete`
-/

namespace GoRaml.Read

open GoRaml GoRaml.Spec GoRaml.Load

/-! ## Storing the same entries twice -/

theorem keys_fill {α : Type} : ∀ (l : List (String × α)) (m : OMap α), (∀ e ∈ l, e.1 ∈ m.map (·.1)) → (fill m l).map (·.1) = m.map (·.1)
  | [], _, _ => rfl
  | e :: l, m, h => by
    have h1 : (OMap.set m e.1 e.2).map (·.1) = m.map (·.1) := by rw [OMap.keys_set, if_pos (h e (by simp))]
    have := keys_fill l (OMap.set m e.1 e.2) fun e' he => by rw [h1]; exact h e' (by simp [he])
    exact this.trans h1

theorem keys_fill_mem {α : Type} : ∀ (l : List (String × α)) (m : OMap α), (∀ k ∈ m.map (·.1), k ∈ (fill m l).map (·.1)) ∧ ∀ e ∈ l, e.1 ∈ (fill m l).map (·.1)
  | [], m => ⟨fun _ h => h, fun _ h => by cases h⟩
  | e :: l, m => by
    obtain ⟨h1, h2⟩ := keys_fill_mem l (OMap.set m e.1 e.2)
    have h3 := OMap.keys_set m e.1 e.2
    refine ⟨fun k hk => h1 k ?_, fun e' he => ?_⟩
    · rw [h3]; split
      · exact hk
      · simp only [List.mem_append]; exact .inl hk
    · rcases List.mem_cons.1 he with rfl | he
      · apply h1; rw [h3]; split
        · assumption
        · simp
      · exact h2 e' he

theorem nodup_fill {α : Type} : ∀ (l : List (String × α)) (m : OMap α), (m.map (·.1)).Nodup → ((fill m l).map (·.1)).Nodup
  | [], _, h => h
  | e :: l, m, h => by
    refine nodup_fill l (OMap.set m e.1 e.2) ?_
    rw [OMap.keys_set]; split
    · exact h
    · rename_i hn
      refine List.Nodup.append h (by simp) ?_
      simpa using hn

theorem get_fill {α : Type} : ∀ (l : List (String × α)) (m m' : OMap α) (k : String), OMap.get m k = OMap.get m' k ∨ k ∈ l.map (·.1) →
    OMap.get (fill m l) k = OMap.get (fill m' l) k
  | [], m, m', k, h => h.elim id fun h => by simp at h
  | e :: l, m, m', k, h => by
    refine get_fill l _ _ k ?_
    by_cases hk : e.1 = k
    · left; rw [OMap.get_set, OMap.get_set, if_pos hk.symm, if_pos hk.symm]
    · rcases h with h | h
      · left; rw [OMap.get_set, OMap.get_set, if_neg (Ne.symm hk), if_neg (Ne.symm hk)]; exact h
      · right; simpa [Ne.symm hk] using h

theorem omap_ext {α : Type} : ∀ {m m' : OMap α}, m.map (·.1) = m'.map (·.1) → (m.map (·.1)).Nodup → (∀ k, OMap.get m k = OMap.get m' k) → m = m'
  | [], [], _, _, _ => rfl
  | [], _ :: _, h, _, _ => by simp at h
  | _ :: _, [], h, _, _ => by simp at h
  | (k, x) :: m, (k', x') :: m', h, hn, hg => by
    simp only [List.map_cons, List.cons.injEq] at h
    obtain ⟨rfl, h⟩ := h
    have hx := hg k
    simp only [OMap.get, if_true] at hx
    cases hx
    simp only [List.map_cons, List.nodup_cons] at hn
    have hnone : ∀ {m : OMap α}, k ∉ m.map (·.1) → OMap.get m k = none := by
      intro m hm
      induction m with
      | nil => rfl
      | cons e m ih =>
        obtain ⟨k2, x2⟩ := e
        simp only [List.map_cons, List.mem_cons, not_or] at hm
        simp only [OMap.get]; rw [if_neg (Ne.symm hm.1)]; exact ih hm.2
    rw [omap_ext h hn.2 fun j => ?_]
    by_cases hj : k = j
    · subst hj; rw [hnone hn.1, hnone (h ▸ hn.1)]
    · have := hg j
      simpa only [OMap.get, if_neg hj] using this

theorem fill_twice {α : Type} (l : List (String × α)) : fill (filled l) l = filled l := by
  have hk : (fill (filled l) l).map (·.1) = (filled l).map (·.1) := keys_fill l _ fun e he => (keys_fill_mem l []).2 e he
  refine omap_ext hk (hk ▸ nodup_fill l [] (by simp)) fun k => ?_
  by_cases h : k ∈ l.map (·.1)
  · exact get_fill l _ _ k (.inr h)
  · have : ∀ (l : List (String × α)) (m : OMap α), k ∉ l.map (·.1) → OMap.get (fill m l) k = OMap.get m k := by
      intro l
      induction l with
      | nil => intro m _; rfl
      | cons e l ih =>
        intro m hm
        simp only [List.map_cons, List.mem_cons, not_or] at hm
        refine (ih (OMap.set m e.1 e.2) hm.2).trans ?_
        rw [OMap.get_set, if_neg hm.1]
    exact this l _ h

/-! ## Making a shape -/

theorem keyword_kind {t : String} (h : Kind (emptyShape t) ≠ "unknown") : Kind (emptyShape t) = t ∧ t ∈ keywords := by
  by_cases hk : t ∈ keywords
  · refine ⟨?_, hk⟩
    simp only [keywords, List.mem_cons, List.not_mem_nil, or_false] at hk
    rcases hk with h | h | h | h | h | h | h | h | h | h | h | h | h | h | h <;> subst h <;> rfl
  · refine absurd ?_ h
    simp only [keywords, List.mem_cons, List.not_mem_nil, or_false, not_or] at hk
    obtain ⟨h1, h2, h3, h4, h5, h6, h7, h8, h9, h10, h11, h12, h13, h14, h15⟩ := hk
    simp only [emptyShape, h1, h2, h3, h4, h5, h6, h7, h8, h9, h10, h11, h12, h13, h14, h15, if_false]
    rfl

theorem keyword_known {t : String} (h : t ∈ keywords) : Kind (emptyShape t) ≠ "unknown" := by
  simp only [keywords, List.mem_cons, List.not_mem_nil, or_false] at h
  rcases h with h | h | h | h | h | h | h | h | h | h | h | h | h | h | h <;> subst h <;> decide

section
variable {E : Env} {c : Calls} {rg : Region} {s s' : St} {a : Addr} {b : Base} {t : String} {facets : Option (List YNode)}

theorem facetsRead_empty {loc : String} {R : YNode → String → Addr → Prop} {own : Prop} (t : String) : FacetsRead E s loc R own [] (emptyShape t) := by
  rcases emptyShape_cases t with h | h | h | h | h | h | h | h | h | h | h | h | h | h | h | h <;> rw [h] <;>
    first
    | trivial
    | exact reads_nil
    | exact ⟨reads_nil, reads_nil, reads_nil⟩
    | exact ⟨reads_nil, reads_nil, reads_nil, reads_nil⟩
    | exact ⟨reads_nil, reads_nil, reads_nil, fun _ => reads_nil⟩
    | exact ⟨reads_nil, reads_nil, reads_nil, reads_nil, reads_nil⟩
    | exact ⟨reads_nil, reads_nil, reads_nil, reads_nil, reads_nil, lists_nil, lists_nil⟩

theorem own_empty {s0 : St} (f : ObjectF) (h : emptyShape t = .object f) : OwnMaps s0 s rg f := by
  rcases emptyShape_cases t with e | e | e | e | e | e | e | e | e | e | e | e | e | e | e | e <;> rw [e] at h <;> cases h
  exact ⟨fun i h => (Option.some_ne_none i h.symm).elim, fun i h => (Option.some_ne_none i h.symm).elim⟩

theorem nodes_eq {loc : String} {sh : Shape} (h1 : Kind sh ≠ "union") (h2 : Kind sh ≠ "json") (h3 : Kind sh ≠ "recursive") (h4 : Kind sh ≠ "unknown") :
    unmarshalYAMLNodes E c a loc sh facets =
      if (facets.getD []).length % 2 ≠ 0 then M.err "odd number of nodes" else unmarshalFacets E c a loc (facets.getD []) sh := by
  cases sh <;> first | rfl | (exfalso; simp [Kind] at h1 h2 h3 h4)

/-- What a concrete shape is like after it has been made at `a`. -/
structure Made (E : Env) (s : St) (a : Addr) (t : String) (facets : Option (List YNode)) (b : Base) (rg : Region) (s' : St) (sh : Shape) : Prop where
  inv : Inv E (atBase a) s rg s'
  base : s'.base a = some { b with type := t, shape := some sh }
  maps : ∀ f, sh = .object f → OwnMaps s s' rg f
  has : Has E s' b.location (D E False rg s' b.location) True t facets { b with type := t, shape := some sh }

/-- The custom facets at the start: none, or the right ones already. -/
def Starts (E : Env) (s : St) (a : Addr) (b : Base) (t : String) (facets : Option (List YNode)) : Prop :=
  ∃ m, s.fmaps[a]? = some m ∧ (m = [] ∨ CustomRead E b.location t (entriesOf (facets.getD [])) m)

theorem custom_unique {loc : String} : ∀ {es : List (String × YNode)} {l l' : List (String × GoVal)}, List.Forall₂ (CustomEntry E loc) es l →
    List.Forall₂ (CustomEntry E loc) es l' → l = l'
  | _, _, _, .nil, .nil => rfl
  | _, (_, _) :: _, (_, _) :: _, .cons ⟨h1, h2⟩ h, .cons ⟨h1', h2'⟩ h' => by
    unfold ValueOf at h2 h2'
    rw [h2] at h2'; cases h2'
    simp only at h1 h1'
    rw [h1, h1', custom_unique h h']

theorem makeConcrete_reads (hg : Good E c) (ht : Tied E s) (hb : s.base a = some b) (hk : Kind (emptyShape t) ≠ "unknown") (hs : Starts E s a b t facets)
    (hr : makeConcrete E c a t facets s = (.ok (), s')) : ∃ rg sh, Made E s a t facets b rg s' sh := by
  unfold makeConcrete at hr
  obtain ⟨b0, s1, r1, r2⟩ := M.bind_ok.1 hr
  obtain ⟨rfl, hb0⟩ := getBase_ok r1
  rw [hb] at hb0; cases hb0
  obtain ⟨u, s2, r3, r4⟩ := M.bind_ok.1 r2
  unfold Heap.updBase at r3
  cases r3
  have hk' := keyword_kind hk
  have ha : a < s1.bases.length := lt_of_get hb
  have hfac : b.facets = some a := ht.own a b hb
  have hc := chg_updBase (s := s1) a fun b => { b with type := t, shape := some (emptyShape t) }
  have hnu : ∀ f, emptyShape t ≠ .unknown f := fun f e => hk (by rw [e]; rfl)
  have ht2 : Tied E { s1 with bases := s1.bases.modify a fun b => { b with type := t, shape := some (emptyShape t) } } := ht.updBase fun b0 _ =>
    ⟨rfl, fun ⟨f, hf⟩ => absurd (Option.some.inj hf) (hnu f)⟩
  have hb2 := base_modify_eq (f := fun b => { b with type := t, shape := some (emptyShape t) }) hb
  have hinv : Inv E (atBase a) s1 .none { s1 with bases := s1.bases.modify a fun b => { b with type := t, shape := some (emptyShape t) } } :=
    (Inv.start ht).write hc ht2 rfl rfl ⟨fun _ h => h.elim, fun _ h => h.elim, fun _ h => h.elim⟩ (Region.Le.rfl.on _)
  obtain ⟨m0, hm0, hm1⟩ := hs
  have hplain : t = "union" ∨ t = "json" → m0 = [] := by
    intro hu
    rcases hm1 with h | h
    · exact h
    · rw [CustomRead, if_pos hu] at h; exact h
  have hmap : ∀ {s'' : St} {b'' : Base} {m : OMap GoVal}, b''.facets = b.facets → s''.fmaps[a]? = some m → s''.facetMap b''.facets = m := by
    intro s'' b'' m h1 h2
    rw [h1, hfac]; simp [St.facetMap, h2]
  by_cases hu : t = "union" ∨ t = "json"
  · have hnodes : unmarshalYAMLNodes E c a b.location (emptyShape t) facets = M.ret () := by rcases hu with rfl | rfl <;> rfl
    rw [hnodes] at r4
    obtain ⟨-, rfl⟩ := M.ret_ok.1 r4
    refine ⟨.none, emptyShape t, hinv, hb2, fun f hf => own_empty f hf, rfl, ⟨_, rfl, rfl, hk⟩, ?_, ?_⟩
    · intro sh hsh; cases hsh
      rcases hu with rfl | rfl <;> trivial
    · rw [CustomRead, if_pos hu]; exact (hmap rfl hm0).trans (hplain hu)
  · rw [nodes_eq (by rw [hk'.1]; exact fun h => hu (.inl h)) (by rw [hk'.1]; exact fun h => hu (.inr h))
      (by rw [hk'.1]; rintro rfl; exact absurd hk'.2 (by decide)) hk] at r4
    split at r4
    · cases r4
    have hnot := hu
    obtain ⟨rg, sh, h1, h2⟩ := unmarshalFacets_reads (m0 := m0) (b := { b with type := t }) hg ha hfac _ ⟨hinv, hb2, hnu, fun f hf => own_empty f hf, facetsRead_empty t,
      [], .nil, hm0⟩ r4
    rw [List.nil_append] at h1
    refine ⟨rg, sh, h1.inv, h1.base, h1.maps, rfl, ⟨sh, rfl, h2, by rw [h2]; exact hk⟩, ?_, ?_⟩
    · intro sh' hsh; cases hsh; exact h1.reads
    · obtain ⟨l, h3, h4⟩ := h1.custom
      rw [CustomRead, if_neg hnot, hmap rfl h4]
      have hkt : Kind sh = t := h2.trans hk'.1
      rw [hkt] at h3
      refine ⟨l, h3, ?_⟩
      rcases hm1 with rfl | hm1
      · rfl
      · rw [CustomRead, if_neg hnot] at hm1
        obtain ⟨l0, h5, rfl⟩ := hm1
        have : l = l0 := custom_unique h3 h5
        subst this
        exact fill_twice l

/-- A reference: just the facets are kept. -/
theorem makeConcrete_unknown (hb : s.base a = some b) (hk : Kind (emptyShape t) = "unknown") (hr : makeConcrete E c a t facets s = (.ok (), s')) :
    s' = { s with bases := s.bases.modify a fun b => { b with type := t, shape := some (.unknown facets) } } := by
  unfold makeConcrete at hr
  obtain ⟨b0, s1, r1, r2⟩ := M.bind_ok.1 hr
  obtain ⟨rfl, hb0⟩ := getBase_ok r1
  obtain ⟨u, s2, r3, r4⟩ := M.bind_ok.1 r2
  unfold Heap.updBase at r3
  cases r3
  obtain ⟨f, hf⟩ := kind_unknown hk
  rw [hf] at r4
  simp only [unmarshalYAMLNodes, setShape, Heap.updBase] at r4
  cases r4
  congr 1
  simp [List.modify_modify_eq, Function.comp_def]

end

end GoRaml.Read
