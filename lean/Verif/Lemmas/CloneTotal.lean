import Verif.Lemmas.Clone
import Mathlib.Data.Finset.Card
import Mathlib.Data.List.Dedup
import Mathlib.Data.Finset.Dedup

namespace GoRaml

open Spec

/-- Number of IDs in the original heap that have not been cloned yet. -/
def rem (h0 : St) (μ : List (Int × Addr)) : Nat :=
  ((h0.bases.map (·.id)).toFinset.filter (fun i => memoGet μ i = none)).card

theorem rem_mono {h0 : St} {μ μ' : List (Int × Addr)}
    (hm : ∀ i c, memoGet μ i = some c → memoGet μ' i = some c) : rem h0 μ' ≤ rem h0 μ := by
  apply Finset.card_le_card
  intro i hi
  simp only [Finset.mem_filter] at hi ⊢
  refine ⟨hi.1, ?_⟩
  cases h : memoGet μ i with
  | none => rfl
  | some c => have := hm i c h; rw [hi.2] at this; cases this

theorem rem_cons {h0 : St} {μ : List (Int × Addr)} {a : Addr} {b : Base} (hb : h0.base a = some b)
    (hn : memoGet μ b.id = none) (c : Addr) : rem h0 ((b.id, c) :: μ) < rem h0 μ := by
  apply Finset.card_lt_card
  refine ⟨?_, ?_⟩
  · intro i hi
    have hi := Finset.mem_filter.1 hi
    refine Finset.mem_filter.2 ⟨hi.1, ?_⟩
    have := hi.2
    rw [memoGet_cons] at this
    split at this
    · cases this
    · exact this
  · intro hsub
    have : b.id ∈ (h0.bases.map (·.id)).toFinset.filter (fun i => memoGet μ i = none) := by
      simp only [Finset.mem_filter, List.mem_toFinset, List.mem_map]
      exact ⟨⟨b, List.mem_of_getElem? hb, rfl⟩, hn⟩
    have := (Finset.mem_filter.1 (hsub this)).2
    simp [memoGet_cons] at this

theorem rem_le (h0 : St) (μ : List (Int × Addr)) : rem h0 μ ≤ h0.bases.length := by
  refine (Finset.card_filter_le _ _).trans ?_
  refine (List.toFinset_card_le _).trans ?_
  simp

def CloneTotal (h0 : St) (Q : Addr → Prop) (k : Nat) (rec : Addr → M CSt Addr) : Prop :=
  ∀ a t, Ctx h0 t → Q a → rem h0 t.memo ≤ k → ∃ c t', rec a t = (.ok c, t')

section
variable {h0 : St} {Q : Addr → Prop} {k : Nat} {rec : Addr → M CSt Addr} (hr : CloneOK h0 Q rec) (hT : CloneTotal h0 Q k rec)
include hr hT

theorem collect_total : ∀ (l : List Addr) (t : CSt), Ctx h0 t → (∀ a ∈ l, Q a) →
    rem h0 t.memo ≤ k → ∃ ys t', M.collect rec l t = (.ok ys, t') := by
  intro l
  induction l with
  | nil => intro t _ _ _; exact ⟨_, _, rfl⟩
  | cons a l ih =>
    intro t hc hl hk
    obtain ⟨c, t1, h1⟩ := hT a t hc (hl a (by simp)) hk
    obtain ⟨p1, _⟩ := hr a t c t1 hc (hl a (by simp)) h1
    obtain ⟨ys, t2, h2⟩ := ih t1 p1.ctx (fun b hb => hl b (List.mem_cons_of_mem _ hb))
      ((rem_mono p1.grow.memo).trans hk)
    exact ⟨_, _, M.bind_ok.2 ⟨c, t1, h1, M.bind_ok.2 ⟨ys, t2, h2, rfl⟩⟩⟩

theorem cloneProps_total : ∀ (l : OMap Property) (t : CSt), Ctx h0 t → (∀ p ∈ l, Q p.2.base) →
    rem h0 t.memo ≤ k → ∃ ys t', cloneProps rec l t = (.ok ys, t') := by
  intro l
  induction l with
  | nil => intro t _ _ _; exact ⟨_, _, rfl⟩
  | cons a l ih =>
    intro t hc hl hk
    obtain ⟨c, t1, h1⟩ := hT a.2.base t hc (hl a (by simp)) hk
    obtain ⟨p1, _⟩ := hr _ t c t1 hc (hl a (by simp)) h1
    obtain ⟨ys, t2, h2⟩ := ih t1 p1.ctx (fun b hb => hl b (List.mem_cons_of_mem _ hb))
      ((rem_mono p1.grow.memo).trans hk)
    exact ⟨_, _, M.bind_ok.2 ⟨_, t1, M.bind_ok.2 ⟨c, t1, h1, rfl⟩, M.bind_ok.2 ⟨ys, t2, h2, rfl⟩⟩⟩

theorem clonePatProps_total : ∀ (l : OMap PatternProperty) (t : CSt), Ctx h0 t →
    (∀ p ∈ l, Q p.2.base) →
    rem h0 t.memo ≤ k → ∃ ys t', clonePatProps rec l t = (.ok ys, t') := by
  intro l
  induction l with
  | nil => intro t _ _ _; exact ⟨_, _, rfl⟩
  | cons a l ih =>
    intro t hc hl hk
    obtain ⟨c, t1, h1⟩ := hT a.2.base t hc (hl a (by simp)) hk
    obtain ⟨p1, _⟩ := hr _ t c t1 hc (hl a (by simp)) h1
    obtain ⟨ys, t2, h2⟩ := ih t1 p1.ctx (fun b hb => hl b (List.mem_cons_of_mem _ hb))
      ((rem_mono p1.grow.memo).trans hk)
    exact ⟨_, _, M.bind_ok.2 ⟨_, t1, M.bind_ok.2 ⟨c, t1, h1, rfl⟩, M.bind_ok.2 ⟨ys, t2, h2, rfl⟩⟩⟩

theorem cloneSlice_total (i : Option Nat) (hi : IfSome (SliceOK h0) i) (hQ : ∀ a ∈ h0.slice i, Q a) (t : CSt) (hc : Ctx h0 t)
    (hk : rem h0 t.memo ≤ k) : ∃ j t', cloneSlice rec i t = (.ok j, t') := by
  have heq : t.h.slice i = h0.slice i := by
    cases i with
    | none => rfl
    | some i =>
      obtain ⟨l, h1, _⟩ := hi i rfl
      exact hc.heap.slice (lt_of_get h1)
  unfold cloneSlice
  rw [heq]
  obtain ⟨ys, t1, h1⟩ := collect_total hr hT _ t hc hQ hk
  exact ⟨_, _, M.bind_ok.2 ⟨ys, t1, h1, rfl⟩⟩

theorem optBase_total (p : Option Addr) (hp : IfSome Q p) (t : CSt) (hc : Ctx h0 t)
    (hk : rem h0 t.memo ≤ k) : ∃ q t', optM rec p t = (.ok q, t') := by
  cases p with
  | none => exact ⟨_, _, rfl⟩
  | some a =>
    obtain ⟨c, t1, h1⟩ := hT a t hc (hp a rfl) hk
    exact ⟨_, _, M.bind_ok.2 ⟨c, t1, h1, rfl⟩⟩

theorem propMap_total (p : Option Nat) (hp : IfSome (PropsOK h0) p) (hQ : ∀ q ∈ h0.props p, Q q.2.base) (t : CSt) (hc : Ctx h0 t)
    (hk : rem h0 t.memo ≤ k) : ∃ q t', optM (clonePropMap rec) p t = (.ok q, t') := by
  cases p with
  | none => exact ⟨_, _, rfl⟩
  | some i =>
    obtain ⟨ps, h3, h4⟩ := hp i rfl
    obtain ⟨ys, t1, h1⟩ := cloneProps_total hr hT (h0.props (some i)) t hc hQ hk
    have : ∃ j t', clonePropMap rec i t = (.ok j, t') := by
      unfold clonePropMap
      rw [hc.heap.props (lt_of_get h3)]
      exact ⟨_, _, M.bind_ok.2 ⟨ys, t1, h1, rfl⟩⟩
    obtain ⟨j, t2, h2⟩ := this
    exact ⟨_, _, M.bind_ok.2 ⟨j, t2, h2, rfl⟩⟩

theorem patPropMap_total (p : Option Nat) (hp : IfSome (PatPropsOK h0) p) (hQ : ∀ q ∈ h0.patProps p, Q q.2.base) (t : CSt) (hc : Ctx h0 t)
    (hk : rem h0 t.memo ≤ k) : ∃ q t', optM (clonePatPropMap rec) p t = (.ok q, t') := by
  cases p with
  | none => exact ⟨_, _, rfl⟩
  | some i =>
    obtain ⟨ps, h3, h4⟩ := hp i rfl
    obtain ⟨ys, t1, h1⟩ := clonePatProps_total hr hT (h0.patProps (some i)) t hc hQ hk
    have : ∃ j t', clonePatPropMap rec i t = (.ok j, t') := by
      unfold clonePatPropMap
      rw [hc.heap.patProps (lt_of_get h3)]
      exact ⟨_, _, M.bind_ok.2 ⟨ys, t1, h1, rfl⟩⟩
    obtain ⟨j, t2, h2⟩ := this
    exact ⟨_, _, M.bind_ok.2 ⟨j, t2, h2, rfl⟩⟩

theorem cloneShape_total (s : Shape) (hs : ShapeOK h0 s) (hQ : ∀ y, ShapeEdge h0 s y → Q y) (t : CSt) (hc : Ctx h0 t)
    (hk : rem h0 t.memo ≤ k) : ∃ s' t', cloneShape rec s t = (.ok s', t') := by
  cases s with
  | array f =>
    obtain ⟨q, t1, h1⟩ := optBase_total hr hT f.items (fun x hx => hQ x (.items hx)) t hc hk
    exact ⟨_, _, M.bind_ok.2 ⟨q, t1, h1, rfl⟩⟩
  | object f =>
    obtain ⟨q, t1, h1⟩ := propMap_total hr hT f.properties hs.1 (fun q hq => hQ _ (.property hq)) t hc hk
    obtain ⟨p1, _⟩ := propMap_clone hr _ hs.1 (fun q hq => hQ _ (.property hq)) t t1 q hc h1
    obtain ⟨q2, t2, h2⟩ := patPropMap_total hr hT f.patternProperties hs.2 (fun q hq => hQ _ (.pattern hq)) t1 p1.ctx
      ((rem_mono p1.grow.memo).trans hk)
    exact ⟨_, _, M.bind_ok.2 ⟨q, t1, h1, M.bind_ok.2 ⟨q2, t2, h2, rfl⟩⟩⟩
  | union l e =>
    obtain ⟨q, t1, h1⟩ := cloneSlice_total hr hT l hs (fun m hm => hQ m (.member hm)) t hc hk
    exact ⟨_, _, M.bind_ok.2 ⟨q, t1, h1, rfl⟩⟩
  | _ => exact ⟨_, _, rfl⟩

theorem cloneFill_total (hQ : ∀ x y, Q x → Edge h0 x y → Q y) (a : Addr) (ha : Q a) (s : Base)
    (hs : h0.base a = some s) (hb : BaseOK h0 s) (c : Addr) (t : CSt) (hc : Ctx h0 t)
    (hk : rem h0 t.memo ≤ k) : ∃ d t', cloneFill rec s c t = (.ok d, t') := by
  unfold cloneFill
  obtain ⟨fm, t1, h1⟩ : ∃ j t', onHeap (Heap.newFacets (t.h.facetMap s.facets)) t = (.ok j, t') := ⟨_, _, rfl⟩
  obtain ⟨p1, -⟩ := facets_clone (Q := Q) s hb.facets t t1 hc fm h1
  have hk1 := (rem_mono (h0 := h0) p1.grow.memo).trans hk
  have hfd : t1.h.props s.facetDefs = h0.props s.facetDefs ∧ ∀ p ∈ h0.props s.facetDefs, Q p.2.base := by
    refine ⟨?_, fun p hp => hQ a _ ha (.facet hs hp)⟩
    cases hf : s.facetDefs with
    | none => rfl
    | some i =>
      obtain ⟨m, hm, hm'⟩ := hb.facetDefs i hf
      exact p1.ctx.heap.props (lt_of_get hm)
  obtain ⟨fd, t2, h2⟩ : ∃ j t', (M.bind (cloneProps rec (t1.h.props s.facetDefs)) fun ps =>
      onHeap (Heap.newProps ps)) t1 = (.ok j, t') := by
    rw [hfd.1]
    obtain ⟨ys, t3, h3⟩ := cloneProps_total hr hT (h0.props s.facetDefs) t1 p1.ctx hfd.2 hk1
    exact ⟨_, _, M.bind_ok.2 ⟨ys, t3, h3, rfl⟩⟩
  have h2' := h2
  rw [hfd.1] at h2'
  obtain ⟨p2, -⟩ := allocProps_clone hr _ t1 t2 fd p1.ctx hfd.2 h2'
  have hk2 := (rem_mono (h0 := h0) p2.grow.memo).trans hk1
  obtain ⟨al, t3, h3⟩ := optBase_total hr hT s.alias (fun y hy => hQ a y ha (.aliased hs hy)) t2 p2.ctx hk2
  obtain ⟨p3, -⟩ := optBase_clone hr _ (fun y hy => hQ a y ha (.aliased hs hy)) t2 t3 al p2.ctx h3
  have hk3 := (rem_mono (h0 := h0) p3.grow.memo).trans hk2
  obtain ⟨inh, t4, h4, p4⟩ : ∃ q t', optM (fun i => cloneSlice rec (some i)) s.inherits t3 = (.ok q, t') ∧
      Post h0 Q t3 t' := by
    cases hi : s.inherits with
    | none => exact ⟨_, _, rfl, .refl p3.ctx⟩
    | some i =>
      have hio : IfSome (SliceOK h0) (some i) := fun x hx => hb.inherits x (by rw [hi]; exact hx)
      have hiq : ∀ y ∈ h0.slice (some i), Q y := fun y hy => hQ a y ha (.parent hs (by rw [hi]; exact hy))
      obtain ⟨j, t4, h4⟩ := cloneSlice_total hr hT (some i) hio hiq t3 p3.ctx hk3
      exact ⟨_, _, M.bind_ok.2 ⟨j, t4, h4, rfl⟩, (cloneSlice_clone hr (some i) hio hiq t3 t4 j p3.ctx h4).1⟩
  have hk4 := (rem_mono (h0 := h0) p4.grow.memo).trans hk3
  obtain ⟨lk, t5, h5⟩ : ∃ q t', optM (cloneLink rec) s.link t4 = (.ok q, t') := by
    cases hi : s.link with
    | none => exact ⟨_, _, rfl⟩
    | some i =>
      obtain ⟨d, y, h6, h7, h8⟩ := hb.link i hi
      obtain ⟨c, t5, h5⟩ := hT y t4 p4.ctx (hQ a y ha (.linked hs hi h6 h7)) hk4
      have : ∃ j t', cloneLink rec i t4 = (.ok j, t') := by
        unfold cloneLink
        rw [prefix_get p4.ctx.heap.dts h6]
        simp only [h7]
        exact ⟨_, _, M.bind_ok.2 ⟨c, t5, h5, rfl⟩⟩
      obtain ⟨j, t6, h6⟩ := this
      exact ⟨_, _, M.bind_ok.2 ⟨j, t6, h6, rfl⟩⟩
  obtain ⟨p5, -⟩ := cloneLink_clone hr _ hb.link (fun i d y h1 h2 h3 => hQ a y ha (.linked hs h1 h2 h3)) t4 t5 lk p4.ctx h5
  have hk5 := (rem_mono (h0 := h0) p5.grow.memo).trans hk4
  obtain ⟨sh, hsh, hshok⟩ := hb.shape
  obtain ⟨sh', t6, h6⟩ := cloneShape_total hr hT sh hshok
    (fun y hy => hQ a y ha (.shape (by simp [St.shapeAt, hs, hsh]) hy)) t5 p5.ctx hk5
  rw [hsh]
  exact ⟨_, _, M.bind_ok.2 ⟨fm, t1, h1, M.bind_ok.2 ⟨fd, t2, h2, M.bind_ok.2 ⟨al, t3, h3,
    M.bind_ok.2 ⟨inh, t4, h4, M.bind_ok.2 ⟨lk, t5, h5, M.bind_ok.2 ⟨sh', t6, h6,
    M.bind_ok.2 ⟨(), _, rfl, rfl⟩⟩⟩⟩⟩⟩⟩⟩

end

theorem clone_total {h0 : St} {Q : Addr → Prop} (hw : WellFormed h0)
    (hQ : ∀ x y, Q x → Edge h0 x y → Q y) (hQb : ∀ x, Q x → IsBase h0 x) (n : Nat) : CloneTotal h0 Q n (clone (n + 1)) := by
  induction n with
  | zero =>
    intro a t hc ha hk
    obtain ⟨b, hb⟩ := get_of_lt (hQb a ha)
    have hb : h0.base a = some b := hb
    cases hn : memoGet t.memo b.id with
    | none => have := rem_cons hb hn 0; omega
    | some c =>
      refine ⟨c, t, ?_⟩
      unfold clone
      refine M.bind_ok.2 ⟨b, t, by simp [onHeap, Heap.getBase, hc.heap.base hb], M.bind_ok.2 ⟨t, t, rfl, ?_⟩⟩
      simp [hn]
  | succ n ih =>
    intro a t hc ha hk
    obtain ⟨b, hb⟩ := get_of_lt (hQb a ha)
    have hb : h0.base a = some b := hb
    cases hn : memoGet t.memo b.id with
    | some c =>
      refine ⟨c, t, ?_⟩
      unfold clone
      refine M.bind_ok.2 ⟨b, t, by simp [onHeap, Heap.getBase, hc.heap.base hb], M.bind_ok.2 ⟨t, t, rfl, ?_⟩⟩
      simp [hn]
    | none =>
      set t1 : CSt := ⟨{ t.h with bases := t.h.bases ++ [b] }, (b.id, t.h.bases.length) :: t.memo⟩ with ht1
      have hc1 : Ctx h0 t1 := by
        refine ⟨hc.heap.trans (unchanged_bases _ _), fun i c hi => ?_⟩
        rw [ht1, memoGet_cons] at hi
        split at hi
        · cases hi; exact hc.heap.bases.length_le
        · exact hc.fresh i c hi
      have hlt := rem_cons hb hn t.h.bases.length
      obtain ⟨c, t2, h2⟩ := cloneFill_total (clone_ok_spec hw hQ hQb (n + 1)) ih hQ a ha b hb (hw a b hb) t.h.bases.length t1 hc1
        (by show rem h0 ((b.id, t.h.bases.length) :: t.memo) ≤ n; omega)
      refine ⟨c, t2, ?_⟩
      rw [clone]
      refine M.bind_ok.2 ⟨b, t, by simp [onHeap, Heap.getBase, hc.heap.base hb], M.bind_ok.2 ⟨t, t, rfl, ?_⟩⟩
      simp only [hn]
      exact M.bind_ok.2 ⟨t.h.bases.length, _, rfl, M.bind_ok.2 ⟨(), t1, rfl, h2⟩⟩

/-- Edges of a well-formed heap lead to allocated types. -/
theorem Spec.WellFormed.edge {h : St} (hw : WellFormed h) {x y : Addr} (he : Edge h x y) : IsBase h y := by
  cases he with
  | @shape _ s hs hy =>
    obtain ⟨b, hb⟩ : ∃ b, h.base x = some b := by
      cases hb : h.base x with
      | none => simp [St.shapeAt, hb] at hs
      | some b => exact ⟨b, rfl⟩
    obtain ⟨s', h1, h2⟩ := (hw x b hb).shape
    have : s' = s := by simpa [St.shapeAt, hb, h1] using hs
    subst this
    cases hy with
    | items h3 => exact h2 _ h3
    | @property f p h3 =>
      cases hp : f.properties with
      | none => simp [hp, St.props] at h3
      | some i =>
        obtain ⟨ps, h4, h5⟩ := h2.1 i hp
        simp [hp, St.props, h4] at h3
        exact h5 _ h3
    | @pattern f p h3 =>
      cases hp : f.patternProperties with
      | none => simp [hp, St.patProps] at h3
      | some i =>
        obtain ⟨ps, h4, h5⟩ := h2.2 i hp
        simp [hp, St.patProps, h4] at h3
        exact h5 _ h3
    | @member l e m h3 =>
      cases l with
      | none => simp [St.slice] at h3
      | some i =>
        obtain ⟨ps, h4, h5⟩ := h2 i rfl
        simp [St.slice, h4] at h3
        exact h5 _ h3
  | aliased hb h1 => exact (hw _ _ hb).alias _ h1
  | @parent _ b hb h1 =>
    cases hp : b.inherits with
    | none => simp [hp, St.slice] at h1
    | some i =>
      obtain ⟨ps, h4, h5⟩ := (hw _ _ hb).inherits i hp
      simp [hp, St.slice, h4] at h1
      exact h5 _ h1
  | linked hb h1 h2 h3 =>
    obtain ⟨d, a, h4, h5, h6⟩ := (hw _ _ hb).link _ h1
    rw [h2] at h4; cases h4
    rw [h3] at h5; cases h5
    exact h6
  | @facet b p hb h1 =>
    cases hp : b.facetDefs with
    | none => simp [hp, St.props] at h1
    | some i =>
      obtain ⟨ps, h4, h5⟩ := (hw _ _ hb).facetDefs i hp
      simp [hp, St.props, h4] at h1
      exact h5 _ h1

theorem Spec.WellFormed.reach {h : St} (hw : WellFormed h) {a x : Addr} (ha : IsBase h a) (hr : Reach h a x) :
    IsBase h x := by
  cases hr with
  | refl => exact ha
  | step _ he => exact hw.edge he

/-- Clones of types of a well-formed heap return. -/
theorem cloneMany_total {h : St} (hw : WellFormed h) {l : List Addr} (hl : ∀ a ∈ l, IsBase h a) (n : Nat)
    (hn : h.bases.length < n) : ∃ cs h', cloneMany n l h = (.ok cs, h') := by
  have hc : Ctx h ⟨h, []⟩ := ⟨.refl h, by simp [memoGet]⟩
  obtain ⟨m, rfl⟩ : ∃ m, n = m + 1 := ⟨n - 1, by omega⟩
  have hQ : ∀ x y, (∃ a ∈ l, Reach h a x) → Edge h x y → ∃ a ∈ l, Reach h a y :=
    fun x y ⟨a, ha, hx⟩ he => ⟨a, ha, .step hx he⟩
  have hQb : ∀ x, (∃ a ∈ l, Reach h a x) → IsBase h x := fun x ⟨a, ha, hx⟩ => hw.reach (hl a ha) hx
  obtain ⟨c, t', h1⟩ := collect_total (clone_ok_spec hw hQ hQb (m + 1)) (clone_total hw hQ hQb m) l ⟨h, []⟩ hc
    (fun a ha => ⟨a, ha, .refl a⟩) ((rem_le h []).trans (by omega))
  exact ⟨c, t'.h, by simp [cloneMany, h1]⟩

/-- The relation recorded in the clone map. -/
theorem cloneMany_spec {h h' : St} (hw : WellFormed h) {l cs : List Addr} (hl : ∀ a ∈ l, IsBase h a) {n : Nat}
    (hcl : cloneMany n l h = (.ok cs, h')) : ∃ μ, Unchanged h h' ∧ List.Forall₂ (MR h μ) l cs ∧
      (∀ i x, memoGet μ i = some x → h.bases.length ≤ x ∧ x < h'.bases.length ∧
        Done h (fun x => ∃ a ∈ l, Reach h a x) ⟨h', μ⟩ i x) := by
  have hc : Ctx h ⟨h, []⟩ := ⟨.refl h, by simp [memoGet]⟩
  obtain ⟨c', t', h1⟩ : ∃ c' t', M.collect (clone n) l ⟨h, []⟩ = (c', t') := ⟨_, _, rfl⟩
  simp only [cloneMany, h1, Prod.mk.injEq] at hcl
  obtain ⟨rfl, rfl⟩ := hcl
  have hQ : ∀ x y, (∃ a ∈ l, Reach h a x) → Edge h x y → ∃ a ∈ l, Reach h a y :=
    fun x y ⟨a, ha, hx⟩ he => ⟨a, ha, .step hx he⟩
  have hQb : ∀ x, (∃ a ∈ l, Reach h a x) → IsBase h x := fun x ⟨a, ha, hx⟩ => hw.reach (hl a ha) hx
  obtain ⟨p, m⟩ := collect_clone (clone_ok_spec hw hQ hQb n) l _ t' cs hc (fun a ha => ⟨a, ha, .refl a⟩) h1
  exact ⟨t'.memo, p.grow.heap, m, fun i x hx => p.done i x hx rfl⟩

theorem cloneDetached_eq (n : Nat) (a c : Addr) (h h' : St) :
    cloneDetached n a h = (.ok c, h') ↔ cloneMany n [a] h = (.ok [c], h') := by
  simp only [cloneDetached, cloneMany, M.collect, M.bind, M.ret]
  obtain ⟨o, t⟩ := clone n a ⟨h, []⟩
  cases o <;> simp

theorem cloneDetached_total {h : St} (hw : WellFormed h) {a : Addr} (ha : IsBase h a) (n : Nat)
    (hn : h.bases.length < n) : ∃ c h', cloneDetached n a h = (.ok c, h') := by
  obtain ⟨cs, h', h1⟩ := cloneMany_total hw (l := [a]) (by simpa using ha) n hn
  have h2 := h1
  simp only [cloneMany, M.collect, M.bind, M.ret] at h2
  simp only [cloneDetached]
  revert h2
  obtain ⟨o, t⟩ := clone n a ⟨h, []⟩
  cases o <;> simp

/-- The clone map relates types component by component. -/
theorem Forall₂_mem {α β : Type} {R : α → β → Prop} {l : List α} {l' : List β} (h : List.Forall₂ R l l') {y : β}
    (hy : y ∈ l') : ∃ x ∈ l, R x y := by
  induction h with
  | nil => simp at hy
  | cons hxy _ ih =>
    rcases List.mem_cons.1 hy with rfl | hy
    · exact ⟨_, by simp, hxy⟩
    · obtain ⟨x, hx, hr⟩ := ih hy; exact ⟨x, List.mem_cons_of_mem _ hx, hr⟩

/-- Every type a copy mentions is related to a type the original mentions. -/
theorem SameBase.edge {R H : Addr → Addr → Prop} {h h' : St} {x x' : Addr} {b b' : Base}
    (hb : h.base x = some b) (hb' : h'.base x' = some b') (hs : SameBase R H h h' b b') {y' : Addr}
    (he : Edge h' x' y') : ∃ y, Edge h x y ∧ R y y' := by
  cases he with
  | @shape _ s hs' hy =>
    have h1 : b'.shape = some s := by simpa [St.shapeAt, hb'] using hs'
    have h2 := hs.shape
    rw [h1] at h2
    cases h3 : b.shape with
    | none => rw [h3] at h2; exact h2.elim
    | some s0 =>
      rw [h3] at h2
      have h4 : h.shapeAt x = some s0 := by simp [St.shapeAt, hb, h3]
      change SameShape R H h h' s0 s at h2
      cases hy with
      | @items g a h5 =>
        cases s0 <;> simp only [SameShape, reduceCtorEq] at h2
        rename_i f
        have h6 := h2.2.2.2
        rw [h5] at h6
        cases h7 : f.items with
        | none => rw [h7] at h6; exact h6.elim
        | some i => rw [h7] at h6; exact ⟨i, .shape h4 (.items h7), h6⟩
      | @property g p h5 =>
        cases s0 <;> simp only [SameShape, reduceCtorEq] at h2
        rename_i f
        have h6 := h2.2.2.2.2.2.1
        cases h8 : g.properties with
        | none => simp [h8, St.props] at h5
        | some j =>
          cases h7 : f.properties with
          | none => rw [h7, h8] at h6; exact h6.elim
          | some i =>
            rw [h7, h8] at h6
            rw [h8] at h5
            obtain ⟨q, hq, _, _, _, hr⟩ := Forall₂_mem h6 h5
            exact ⟨q.2.base, .shape h4 (.property (by rw [h7]; exact hq)), hr⟩
      | @pattern g p h5 =>
        cases s0 <;> simp only [SameShape, reduceCtorEq] at h2
        rename_i f
        have h6 := h2.2.2.2.2.2.2
        cases h8 : g.patternProperties with
        | none => simp [h8, St.patProps] at h5
        | some j =>
          cases h7 : f.patternProperties with
          | none => rw [h7, h8] at h6; exact h6.elim
          | some i =>
            rw [h7, h8] at h6
            rw [h8] at h5
            obtain ⟨q, hq, _, _, hr⟩ := Forall₂_mem h6 h5
            exact ⟨q.2.base, .shape h4 (.pattern (by rw [h7]; exact hq)), hr⟩
      | @member l e m h5 =>
        cases s0 <;> simp only [SameShape, reduceCtorEq] at h2
        obtain ⟨q, hq, hr⟩ := Forall₂_mem h2.2 h5
        exact ⟨q, .shape h4 (.member hq), hr⟩
  | @aliased _ b1 h1 h2 =>
    rw [hb'] at h1; cases h1
    have h3 := hs.alias
    rw [h2] at h3
    cases h4 : b.alias with
    | none => rw [h4] at h3; exact h3.elim
    | some i => rw [h4] at h3; exact ⟨i, .aliased hb h4, h3⟩
  | @parent _ b1 h1 h2 =>
    rw [hb'] at h1; cases h1
    have h3 := hs.inherits
    cases h5 : b'.inherits with
    | none => simp [h5, St.slice] at h2
    | some j =>
      cases h4 : b.inherits with
      | none => rw [h4, h5] at h3; exact h3.elim
      | some i =>
        rw [h4, h5] at h3
        rw [h5] at h2
        obtain ⟨q, hq, hr⟩ := Forall₂_mem h3 h2
        exact ⟨q, .parent hb (by rw [h4]; exact hq), hr⟩
  | @linked _ b1 i d h1 h2 h3 h4 =>
    rw [hb'] at h1; cases h1
    have h5 := hs.link
    rw [h2] at h5
    cases h6 : b.link with
    | none => rw [h6] at h5; exact h5.elim
    | some j =>
      rw [h6] at h5
      obtain ⟨d0, d1, h7, h8, _, _, h9⟩ := h5
      rw [h3] at h8; cases h8
      rw [h4] at h9
      cases h10 : d0.shape with
      | none => rw [h10] at h9; exact h9.elim
      | some y => rw [h10] at h9; exact ⟨y, .linked hb h6 h7 h10, h9⟩
  | @facet b1 p h1 h2 =>
    rw [hb'] at h1; cases h1
    obtain ⟨q, hq, _, _, _, hr⟩ := Forall₂_mem hs.facetDefs h2
    exact ⟨q.2.base, .facet hb hq, hr⟩

/-- A shape of a well-formed heap is the same in a grown heap. -/
theorem SameShape.self {h h' : St} (u : Unchanged h h') {R : Addr → Addr → Prop} (hR : ∀ x, IsBase h x → R x x)
    {s : Shape} (hs : ShapeOK h s) : SameShape R R h h' s s := by
  cases s <;> simp only [SameShape]
  · rename_i f
    refine ⟨trivial, trivial, trivial, trivial, trivial, ?_, ?_⟩
    · cases hf : f.properties with
      | none => trivial
      | some i =>
        obtain ⟨ps, h1, h2⟩ := hs.1 i hf
        show SameProps R _ _
        rw [u.props (lt_of_get h1)]
        unfold SameProps
        rw [List.forall₂_same]
        intro p hp
        exact ⟨rfl, rfl, rfl, hR _ (h2 p (by simpa [St.props, h1] using hp))⟩
    · cases hf : f.patternProperties with
      | none => trivial
      | some i =>
        obtain ⟨ps, h1, h2⟩ := hs.2 i hf
        show SamePatProps R _ _
        rw [u.patProps (lt_of_get h1)]
        unfold SamePatProps
        rw [List.forall₂_same]
        intro p hp
        exact ⟨rfl, rfl, hR _ (h2 p (by simpa [St.patProps, h1] using hp))⟩
  · rename_i f
    refine ⟨trivial, trivial, trivial, ?_⟩
    cases hf : f.items with
    | none => trivial
    | some i => exact hR _ (hs i hf)
  · rename_i l e
    refine ⟨trivial, ?_⟩
    cases l with
    | none => exact .nil
    | some i =>
      obtain ⟨ps, h1, h2⟩ := hs i rfl
      rw [u.slice (lt_of_get h1), List.forall₂_same]
      intro p hp
      exact hR _ (h2 p (by simpa [St.slice, h1] using hp))
  · exact hR _ hs

theorem Forall₂_and_mem {α β : Type} {R : α → β → Prop} {P : α → Prop} {l : List α} {l' : List β}
    (h : List.Forall₂ R l l') (hP : ∀ x ∈ l, P x) : List.Forall₂ (fun x y => P x ∧ R x y) l l' := by
  induction h with
  | nil => exact .nil
  | cons hxy _ ih =>
    exact .cons ⟨hP _ (by simp), hxy⟩ (ih fun x hx => hP x (List.mem_cons_of_mem _ hx))

/-- The relation may be restricted to the types the original mentions. -/
theorem SameBase.restrict {R H : Addr → Addr → Prop} {P : Addr → Prop} {h h' : St} {x : Addr} {b b' : Base}
    (hb : h.base x = some b) (hP : ∀ y, Edge h x y → P y) (hs : SameBase R H h h' b b') :
    SameBase (fun p q => P p ∧ R p q) H h h' b b' := by
  refine { hs with facetDefs := ?_, «alias» := ?_, inherits := ?_, link := ?_, shape := ?_ }
  · have := Forall₂_and_mem (P := fun p => P p.2.base) hs.facetDefs (fun p hp => hP _ (.facet hb hp))
    refine List.Forall₂.imp ?_ this
    rintro p q ⟨h1, h2, h3, h4, h5⟩
    exact ⟨h2, h3, h4, h1, h5⟩
  · exact BothOr.mono_of (fun p q hp _ hr => ⟨hP _ (.aliased hb hp), hr⟩) hs.alias
  · refine BothOr.mono_of (fun i j hi _ hr => ?_) hs.inherits
    exact Forall₂_and_mem hr (fun y hy => hP _ (.parent hb (by rw [hi]; exact hy)))
  · refine BothOr.mono_of (fun i j hi _ hr => ?_) hs.link
    obtain ⟨d, d', h1, h2, h3, h4, h5⟩ := hr
    exact ⟨d, d', h1, h2, h3, h4, BothOr.mono_of (fun p q hp _ hr => ⟨hP _ (.linked hb hi h1 hp), hr⟩) h5⟩
  · refine BothOr.mono_of (fun s s' hs1 _ hr => ?_) hs.shape
    have hsh : h.shapeAt x = some s := by simp [St.shapeAt, hb, hs1]
    cases s <;> cases s' <;> simp only [SameShape, reduceCtorEq] at hr ⊢ <;> try exact hr
    · obtain ⟨h1, h2, h3, h4, h5, h6, h7⟩ := hr
      refine ⟨h1, h2, h3, h4, h5, ?_, ?_⟩
      · refine BothOr.mono_of (fun i j hi _ hr => ?_) h6
        have := Forall₂_and_mem (P := fun p => P p.2.base) hr
          (fun p hp => hP _ (.shape hsh (.property (by rw [hi]; exact hp))))
        refine List.Forall₂.imp ?_ this
        rintro p q ⟨h1, h2, h3, h4, h5⟩
        exact ⟨h2, h3, h4, h1, h5⟩
      · refine BothOr.mono_of (fun i j hi _ hr => ?_) h7
        have := Forall₂_and_mem (P := fun p => P p.2.base) hr
          (fun p hp => hP _ (.shape hsh (.pattern (by rw [hi]; exact hp))))
        refine List.Forall₂.imp ?_ this
        rintro p q ⟨h1, h2, h3, h4⟩
        exact ⟨h2, h3, h1, h4⟩
    · obtain ⟨h1, h2, h3, h4⟩ := hr
      exact ⟨h1, h2, h3, BothOr.mono_of (fun i j hi _ hr => ⟨hP _ (.shape hsh (.items hi)), hr⟩) h4⟩
    · obtain ⟨h1, h2⟩ := hr
      exact ⟨h1, Forall₂_and_mem h2 (fun y hy => hP _ (.shape hsh (.member hy)))⟩

theorem SameShape.relax {R H S : Addr → Addr → Prop} {h h' : St} {s s' : Shape} (hRS : ∀ x y, R x y → S x y)
    (hHS : ∀ x y, H x y → IsBase h x → S x y) (hs : ShapeOK h s) (h1 : SameShape R H h h' s s') :
    SameShape S S h h' s s' := by
  cases s <;> cases s' <;> simp only [SameShape, reduceCtorEq] at h1 ⊢ <;> try exact h1
  · obtain ⟨a, b, c, d, e, p, q⟩ := h1
    exact ⟨a, b, c, d, e, BothOr.mono (fun _ _ h => SameProps.mono hRS h) p,
      BothOr.mono (fun _ _ h => SamePatProps.mono hRS h) q⟩
  · obtain ⟨a, b, c, d⟩ := h1
    exact ⟨a, b, c, BothOr.mono hRS d⟩
  · exact ⟨h1.1, List.Forall₂.imp hRS h1.2⟩
  · exact hHS _ _ h1 hs

end GoRaml
