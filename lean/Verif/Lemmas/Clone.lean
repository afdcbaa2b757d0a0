import Verif.Lemmas.Graph
import Verif.Lemmas.Monad
import Verif.Model.Clone
import Mathlib.Data.Finset.Card
import Mathlib.Tactic

namespace GoRaml

open Spec

/-- The relation recorded by the clone map. -/
def MR (h0 : St) (μ : List (Int × Addr)) (x y : Addr) : Prop :=
  ∃ b, h0.base x = some b ∧ memoGet μ b.id = some y

structure Ctx (h0 : St) (t : CSt) : Prop where
  heap : Unchanged h0 t.h
  fresh : ∀ i c, memoGet t.memo i = some c → h0.bases.length ≤ c

structure Grow (t t' : CSt) : Prop where
  heap : Unchanged t.h t'.h
  memo : ∀ i c, memoGet t.memo i = some c → memoGet t'.memo i = some c

def Done (h0 : St) (Q : Addr → Prop) (t : CSt) (i : Int) (c : Addr) : Prop :=
  ∃ x b b', Q x ∧ h0.base x = some b ∧ b.id = i ∧ t.h.base c = some b' ∧
    SameBase (MR h0 t.memo) (fun x y => y = x) h0 t.h b b' ∧ FreshParts h0 t.h b'

structure Post (h0 : St) (Q : Addr → Prop) (t t' : CSt) : Prop where
  grow : Grow t t'
  ctx : Ctx h0 t'
  done : ∀ i c, memoGet t'.memo i = some c → memoGet t.memo i = none →
    t.h.bases.length ≤ c ∧ c < t'.h.bases.length ∧ Done h0 Q t' i c

theorem Grow.refl (t : CSt) : Grow t t := ⟨.refl _, fun _ _ h => h⟩
theorem Grow.trans {a b c : CSt} (h1 : Grow a b) (h2 : Grow b c) : Grow a c :=
  ⟨h1.heap.trans h2.heap, fun i c h => h2.memo i c (h1.memo i c h)⟩

theorem MR.mono {h0 : St} {μ μ' : List (Int × Addr)}
    (hm : ∀ i c, memoGet μ i = some c → memoGet μ' i = some c) {x y : Addr} (h : MR h0 μ x y) :
    MR h0 μ' x y := by
  obtain ⟨b, h1, h2⟩ := h
  exact ⟨b, h1, hm _ _ h2⟩

theorem Spec.FreshParts.mono {lo h h' : St} {b : Base} (hb : FreshParts lo h b) (u : Unchanged h h') :
    FreshParts lo h' b := by
  have l1 := u.fmaps.length_le
  have l2 := u.pmaps.length_le
  have l3 := u.ppmaps.length_le
  have l4 := u.slices.length_le
  have l5 := u.dts.length_le
  constructor
  · intro i hi; have := hb.facets i hi; exact ⟨this.1, by omega⟩
  · intro i hi; have := hb.facetDefs i hi; exact ⟨this.1, by omega⟩
  · intro i hi; have := hb.inherits i hi; exact ⟨this.1, by omega⟩
  · intro i hi; have := hb.link i hi; exact ⟨this.1, by omega⟩
  · intro f hf
    have := hb.object f hf
    exact ⟨fun i hi => ⟨(this.1 i hi).1, by have := (this.1 i hi).2; omega⟩,
      fun i hi => ⟨(this.2 i hi).1, by have := (this.2 i hi).2; omega⟩⟩
  · intro l e hf
    obtain ⟨i, h1, h2, h3⟩ := hb.union l e hf
    exact ⟨i, h1, h2, by omega⟩

theorem SameShape.grow {R S H : Addr → Addr → Prop} (hRS : ∀ x y, R x y → S x y) {lo h0 h h' : St}
    (u : Unchanged h h') {b' : Base} (hf : FreshParts lo h b') {s s' : Shape} (hs' : b'.shape = some s')
    (h1 : SameShape R H h0 h s s') : SameShape S H h0 h' s s' := by
  cases s <;> cases s' <;> simp only [SameShape, reduceCtorEq] at h1 ⊢ <;> try exact h1
  · obtain ⟨a, b, c, d, e, p, q⟩ := h1
    have ho := hf.object _ hs'
    refine ⟨a, b, c, d, e, ?_, ?_⟩
    · refine BothOr.mono_of (fun x y _ hy hxy => ?_) p
      rw [u.props ((ho.1 y hy).2)]
      exact SameProps.mono hRS hxy
    · refine BothOr.mono_of (fun x y _ hy hxy => ?_) q
      rw [u.patProps ((ho.2 y hy).2)]
      exact SamePatProps.mono hRS hxy
  · obtain ⟨a, b, c, d⟩ := h1
    exact ⟨a, b, c, BothOr.mono hRS d⟩
  · obtain ⟨a, b⟩ := h1
    obtain ⟨i, rfl, _, hi⟩ := hf.union _ _ hs'
    exact ⟨a, by rw [u.slice hi]; exact List.Forall₂.imp hRS b⟩

theorem SameBase.grow {R S H : Addr → Addr → Prop} (hRS : ∀ x y, R x y → S x y) {lo h0 h h' : St}
    (u : Unchanged h h') {b b' : Base} (hf : FreshParts lo h b') (h1 : SameBase R H h0 h b b') :
    SameBase S H h0 h' b b' := by
  refine { h1 with facets := ?_, facetDefs := ?_, «alias» := ?_, inherits := ?_, link := ?_, shape := ?_ }
  · rw [← h1.facets]
    cases hb : b'.facets with
    | none => rfl
    | some i => rw [u.facetMap (hf.facets i hb).2]
  · have := h1.facetDefs
    cases hb : b'.facetDefs with
    | none =>
      rw [hb] at this
      have : SameProps R (h0.props b.facetDefs) (h'.props none) := this
      exact SameProps.mono hRS this
    | some i =>
      rw [u.props (hf.facetDefs i hb).2, ← hb]
      exact SameProps.mono hRS this
  · exact BothOr.mono hRS h1.«alias»
  · refine BothOr.mono_of (fun x y _ hy hxy => ?_) h1.inherits
    rw [u.slice (hf.inherits y hy).2]
    exact List.Forall₂.imp hRS hxy
  · refine BothOr.mono_of (fun x y _ hy hxy => ?_) h1.link
    obtain ⟨d, d', h2, h3, h4, h5, h6⟩ := hxy
    exact ⟨d, d', h2, prefix_get u.dts h3, h4, h5, BothOr.mono hRS h6⟩
  · refine BothOr.mono_of (fun x y _ hy hxy => ?_) h1.shape
    exact SameShape.grow hRS u hf hy hxy

theorem Done.grow {h0 : St} {Q : Addr → Prop} {t t' : CSt} (g : Grow t t') {i : Int} {c : Addr} (h : Done h0 Q t i c) :
    Done h0 Q t' i c := by
  obtain ⟨x, b, b', h0, h1, h2, h3, h4, h5⟩ := h
  exact ⟨x, b, b', h0, h1, h2, g.heap.base h3, SameBase.grow (fun _ _ h => MR.mono g.memo h) g.heap h5 h4,
    h5.mono g.heap⟩

theorem Post.refl {h0 : St} {Q : Addr → Prop} {t : CSt} (hc : Ctx h0 t) : Post h0 Q t t :=
  ⟨.refl t, hc, fun i c h1 h2 => by rw [h1] at h2; cases h2⟩

theorem Post.trans {h0 : St} {Q : Addr → Prop} {a b c : CSt} (h1 : Post h0 Q a b) (h2 : Post h0 Q b c) : Post h0 Q a c := by
  refine ⟨h1.grow.trans h2.grow, h2.ctx, fun i x hx hn => ?_⟩
  have l1 := h1.grow.heap.bases.length_le
  have l2 := h2.grow.heap.bases.length_le
  cases hb : memoGet b.memo i with
  | none =>
    obtain ⟨p, q, r⟩ := h2.done i x hx hb
    exact ⟨l1.trans p, q, r⟩
  | some y =>
    have := h2.grow.memo i y hb
    rw [hx] at this; cases this
    obtain ⟨p, q, r⟩ := h1.done i x hb hn
    exact ⟨p, lt_of_lt_of_le q l2, r.grow h2.grow⟩

/-- Heap allocation that keeps the clone map. -/
theorem Post.alloc {h0 : St} {Q : Addr → Prop} {t : CSt} (hc : Ctx h0 t) {h' : St} (u : Unchanged t.h h') :
    Post h0 Q t { t with h := h' } :=
  ⟨⟨u, fun _ _ h => h⟩, ⟨hc.heap.trans u, hc.fresh⟩, fun i c h1 h2 => by simp_all⟩

/-- What a nested clone call guarantees. -/
def CloneOK (h0 : St) (Q : Addr → Prop) (rec : Addr → M CSt Addr) : Prop :=
  ∀ a t c t', Ctx h0 t → Q a → rec a t = (.ok c, t') →
    Post h0 Q t t' ∧ MR h0 t'.memo a c

theorem collect_clone {h0 : St} {Q : Addr → Prop} {rec : Addr → M CSt Addr} (hr : CloneOK h0 Q rec) :
    ∀ (l : List Addr) (t t' : CSt) (ys : List Addr), Ctx h0 t → (∀ a ∈ l, Q a) →
      M.collect rec l t = (.ok ys, t') → Post h0 Q t t' ∧ List.Forall₂ (MR h0 t'.memo) l ys := by
  intro l
  induction l with
  | nil =>
    intro t t' ys hc _ h
    obtain ⟨rfl, rfl⟩ := M.ret_ok.1 h
    exact ⟨.refl hc, .nil⟩
  | cons a l ih =>
    intro t t' ys hc hl h
    obtain ⟨y, t1, h1, h2⟩ := M.bind_ok.1 h
    obtain ⟨ys', t2, h3, h4⟩ := M.bind_ok.1 h2
    obtain ⟨rfl, rfl⟩ := M.ret_ok.1 h4
    obtain ⟨p1, m1⟩ := hr a t y t1 hc (hl a (by simp)) h1
    obtain ⟨p2, m2⟩ := ih t1 t2 ys' p1.ctx (fun b hb => hl b (List.mem_cons_of_mem _ hb)) h3
    exact ⟨p1.trans p2, .cons (MR.mono p2.grow.memo m1) m2⟩

theorem cloneProps_clone {h0 : St} {Q : Addr → Prop} {rec : Addr → M CSt Addr} (hr : CloneOK h0 Q rec) :
    ∀ (l : OMap Property) (t t' : CSt) (ys : OMap Property), Ctx h0 t → (∀ p ∈ l, Q p.2.base) →
      cloneProps rec l t = (.ok ys, t') → Post h0 Q t t' ∧ SameProps (MR h0 t'.memo) l ys := by
  intro l
  induction l with
  | nil =>
    intro t t' ys hc _ h
    obtain ⟨rfl, rfl⟩ := M.ret_ok.1 h
    exact ⟨.refl hc, .nil⟩
  | cons a l ih =>
    intro t t' ys hc hl h
    obtain ⟨y, t1, h1, h2⟩ := M.bind_ok.1 h
    obtain ⟨ys', t2, h3, h4⟩ := M.bind_ok.1 h2
    obtain ⟨rfl, rfl⟩ := M.ret_ok.1 h4
    obtain ⟨c, t3, h5, h6⟩ := M.bind_ok.1 h1
    obtain ⟨rfl, rfl⟩ := M.ret_ok.1 h6
    obtain ⟨p1, m1⟩ := hr _ t c t3 hc (hl a (by simp)) h5
    obtain ⟨p2, m2⟩ := ih t3 t2 ys' p1.ctx (fun b hb => hl b (List.mem_cons_of_mem _ hb)) h3
    exact ⟨p1.trans p2, .cons ⟨rfl, rfl, rfl, MR.mono p2.grow.memo m1⟩ m2⟩

theorem clonePatProps_clone {h0 : St} {Q : Addr → Prop} {rec : Addr → M CSt Addr} (hr : CloneOK h0 Q rec) :
    ∀ (l : OMap PatternProperty) (t t' : CSt) (ys : OMap PatternProperty), Ctx h0 t →
      (∀ p ∈ l, Q p.2.base) →
      clonePatProps rec l t = (.ok ys, t') → Post h0 Q t t' ∧ SamePatProps (MR h0 t'.memo) l ys := by
  intro l
  induction l with
  | nil =>
    intro t t' ys hc _ h
    obtain ⟨rfl, rfl⟩ := M.ret_ok.1 h
    exact ⟨.refl hc, .nil⟩
  | cons a l ih =>
    intro t t' ys hc hl h
    obtain ⟨y, t1, h1, h2⟩ := M.bind_ok.1 h
    obtain ⟨ys', t2, h3, h4⟩ := M.bind_ok.1 h2
    obtain ⟨rfl, rfl⟩ := M.ret_ok.1 h4
    obtain ⟨c, t3, h5, h6⟩ := M.bind_ok.1 h1
    obtain ⟨rfl, rfl⟩ := M.ret_ok.1 h6
    obtain ⟨p1, m1⟩ := hr _ t c t3 hc (hl a (by simp)) h5
    obtain ⟨p2, m2⟩ := ih t3 t2 ys' p1.ctx (fun b hb => hl b (List.mem_cons_of_mem _ hb)) h3
    exact ⟨p1.trans p2, .cons ⟨rfl, rfl, MR.mono p2.grow.memo m1⟩ m2⟩

/-! Allocation steps. -/

theorem unchanged_pmaps (h : St) (x : OMap Property) : Unchanged h { h with pmaps := h.pmaps ++ [x] } := by
  constructor <;> first | rfl | exact List.prefix_refl _ | exact List.prefix_append _ _
theorem unchanged_ppmaps (h : St) (x : OMap PatternProperty) :
    Unchanged h { h with ppmaps := h.ppmaps ++ [x] } := by
  constructor <;> first | rfl | exact List.prefix_refl _ | exact List.prefix_append _ _
theorem unchanged_slices (h : St) (x : List Addr) : Unchanged h { h with slices := h.slices ++ [x] } := by
  constructor <;> first | rfl | exact List.prefix_refl _ | exact List.prefix_append _ _
theorem unchanged_fmaps (h : St) (x : OMap GoVal) : Unchanged h { h with fmaps := h.fmaps ++ [x] } := by
  constructor <;> first | rfl | exact List.prefix_refl _ | exact List.prefix_append _ _
theorem unchanged_dts (h : St) (x : DT) : Unchanged h { h with dts := h.dts ++ [x] } := by
  constructor <;> first | rfl | exact List.prefix_refl _ | exact List.prefix_append _ _
theorem unchanged_bases (h : St) (x : Base) : Unchanged h { h with bases := h.bases ++ [x] } := by
  constructor <;> first | rfl | exact List.prefix_refl _ | exact List.prefix_append _ _

/-- A property map allocated by a clone. -/
theorem allocProps_clone {h0 : St} {Q : Addr → Prop} {rec : Addr → M CSt Addr} (hr : CloneOK h0 Q rec) (l : OMap Property)
    (t t' : CSt) (j : Nat) (hc : Ctx h0 t) (hl : ∀ p ∈ l, Q p.2.base)
    (h : (M.bind (cloneProps rec l) fun ps => onHeap (Heap.newProps ps)) t = (.ok j, t')) :
    Post h0 Q t t' ∧ SameProps (MR h0 t'.memo) l (t'.h.props (some j)) ∧
      h0.pmaps.length ≤ j ∧ j < t'.h.pmaps.length := by
  obtain ⟨ys, t1, h1, h2⟩ := M.bind_ok.1 h
  obtain ⟨p1, m1⟩ := cloneProps_clone hr l t t1 ys hc hl h1
  simp only [onHeap, Heap.newProps, Prod.mk.injEq, Out.ok.injEq] at h2
  obtain ⟨rfl, rfl⟩ := h2
  refine ⟨p1.trans (.alloc p1.ctx (unchanged_pmaps _ _)), ?_, p1.ctx.heap.pmaps.length_le, by simp⟩
  simpa [St.props] using m1

theorem allocPatProps_clone {h0 : St} {Q : Addr → Prop} {rec : Addr → M CSt Addr} (hr : CloneOK h0 Q rec)
    (l : OMap PatternProperty)
    (t t' : CSt) (j : Nat) (hc : Ctx h0 t) (hl : ∀ p ∈ l, Q p.2.base)
    (h : (M.bind (clonePatProps rec l) fun ps => onHeap (Heap.newPatProps ps)) t = (.ok j, t')) :
    Post h0 Q t t' ∧ SamePatProps (MR h0 t'.memo) l (t'.h.patProps (some j)) ∧
      h0.ppmaps.length ≤ j ∧ j < t'.h.ppmaps.length := by
  obtain ⟨ys, t1, h1, h2⟩ := M.bind_ok.1 h
  obtain ⟨p1, m1⟩ := clonePatProps_clone hr l t t1 ys hc hl h1
  simp only [onHeap, Heap.newPatProps, Prod.mk.injEq, Out.ok.injEq] at h2
  obtain ⟨rfl, rfl⟩ := h2
  refine ⟨p1.trans (.alloc p1.ctx (unchanged_ppmaps _ _)), ?_, p1.ctx.heap.ppmaps.length_le, by simp⟩
  simpa [St.patProps] using m1

theorem cloneSlice_clone {h0 : St} {Q : Addr → Prop} {rec : Addr → M CSt Addr} (hr : CloneOK h0 Q rec) (i : Option Nat)
    (hi : IfSome (SliceOK h0) i) (hQ : ∀ a ∈ h0.slice i, Q a)
    (t t' : CSt) (j : Nat) (hc : Ctx h0 t) (h : cloneSlice rec i t = (.ok j, t')) :
    Post h0 Q t t' ∧ List.Forall₂ (MR h0 t'.memo) (h0.slice i) (t'.h.slice (some j)) ∧
      h0.slices.length ≤ j ∧ j < t'.h.slices.length := by
  have heq : t.h.slice i = h0.slice i := by
    cases i with
    | none => rfl
    | some i =>
      obtain ⟨l, h1, _⟩ := hi i rfl
      exact hc.heap.slice (lt_of_get h1)
  unfold cloneSlice at h
  rw [heq] at h
  obtain ⟨ys, t1, h1, h2⟩ := M.bind_ok.1 h
  obtain ⟨p1, m1⟩ := collect_clone hr _ t t1 ys hc hQ h1
  simp only [onHeap, Heap.newSlice, Prod.mk.injEq, Out.ok.injEq] at h2
  obtain ⟨rfl, rfl⟩ := h2
  refine ⟨p1.trans (.alloc p1.ctx (unchanged_slices _ _)), ?_, p1.ctx.heap.slices.length_le, by simp⟩
  simpa [St.slice] using m1

theorem optBase_clone {h0 : St} {Q : Addr → Prop} {rec : Addr → M CSt Addr} (hr : CloneOK h0 Q rec) (p : Option Addr)
    (hp : IfSome Q p) (t t' : CSt) (q : Option Addr) (hc : Ctx h0 t)
    (h : optM rec p t = (.ok q, t')) : Post h0 Q t t' ∧ BothOr (MR h0 t'.memo) p q := by
  cases p with
  | none =>
    obtain ⟨rfl, rfl⟩ := M.ret_ok.1 h
    exact ⟨.refl hc, trivial⟩
  | some a =>
    obtain ⟨c, t1, h1, h2⟩ := M.bind_ok.1 h
    obtain ⟨rfl, rfl⟩ := M.ret_ok.1 h2
    obtain ⟨p1, m1⟩ := hr a t c t1 hc (hp a rfl) h1
    exact ⟨p1, m1⟩

/-- The shape part of a clone, with the freshness of its maps. -/
structure ShapeFresh (lo h : St) (s : Shape) : Prop where
  object : ∀ f, s = .object f →
    IfSome (fun i => lo.pmaps.length ≤ i ∧ i < h.pmaps.length) f.properties ∧
    IfSome (fun i => lo.ppmaps.length ≤ i ∧ i < h.ppmaps.length) f.patternProperties
  union : ∀ l e, s = .union l e → ∃ i, l = some i ∧ lo.slices.length ≤ i ∧ i < h.slices.length

theorem propMap_clone {h0 : St} {Q : Addr → Prop} {rec : Addr → M CSt Addr} (hr : CloneOK h0 Q rec) (p : Option Nat)
    (hp : IfSome (PropsOK h0) p) (hQ : ∀ q ∈ h0.props p, Q q.2.base) (t t' : CSt) (q : Option Nat) (hc : Ctx h0 t)
    (h : optM (clonePropMap rec) p t = (.ok q, t')) : Post h0 Q t t' ∧
      BothOr (fun i j => SameProps (MR h0 t'.memo) (h0.props (some i)) (t'.h.props (some j))) p q ∧
      IfSome (fun i => h0.pmaps.length ≤ i ∧ i < t'.h.pmaps.length) q := by
  cases p with
  | none =>
    obtain ⟨rfl, rfl⟩ := M.ret_ok.1 h
    exact ⟨.refl hc, trivial, by simp [IfSome]⟩
  | some i =>
    obtain ⟨c, t1, h1, h2⟩ := M.bind_ok.1 h
    obtain ⟨rfl, rfl⟩ := M.ret_ok.1 h2
    obtain ⟨ps, h3, h4⟩ := hp i rfl
    have heq : t.h.props (some i) = h0.props (some i) := hc.heap.props (lt_of_get h3)
    unfold clonePropMap at h1
    rw [heq] at h1
    obtain ⟨p1, m1, f1, f2⟩ := allocProps_clone hr _ t t1 c hc hQ h1
    exact ⟨p1, m1, by rintro _ ⟨⟩; exact ⟨f1, f2⟩⟩

theorem patPropMap_clone {h0 : St} {Q : Addr → Prop} {rec : Addr → M CSt Addr} (hr : CloneOK h0 Q rec) (p : Option Nat)
    (hp : IfSome (PatPropsOK h0) p) (hQ : ∀ q ∈ h0.patProps p, Q q.2.base) (t t' : CSt) (q : Option Nat) (hc : Ctx h0 t)
    (h : optM (clonePatPropMap rec) p t = (.ok q, t')) : Post h0 Q t t' ∧
      BothOr (fun i j => SamePatProps (MR h0 t'.memo) (h0.patProps (some i)) (t'.h.patProps (some j))) p q ∧
      IfSome (fun i => h0.ppmaps.length ≤ i ∧ i < t'.h.ppmaps.length) q := by
  cases p with
  | none =>
    obtain ⟨rfl, rfl⟩ := M.ret_ok.1 h
    exact ⟨.refl hc, trivial, by simp [IfSome]⟩
  | some i =>
    obtain ⟨c, t1, h1, h2⟩ := M.bind_ok.1 h
    obtain ⟨rfl, rfl⟩ := M.ret_ok.1 h2
    obtain ⟨ps, h3, h4⟩ := hp i rfl
    have heq : t.h.patProps (some i) = h0.patProps (some i) := hc.heap.patProps (lt_of_get h3)
    unfold clonePatPropMap at h1
    rw [heq] at h1
    obtain ⟨p1, m1, f1, f2⟩ := allocPatProps_clone hr _ t t1 c hc hQ h1
    exact ⟨p1, m1, by rintro _ ⟨⟩; exact ⟨f1, f2⟩⟩

theorem cloneShape_clone {h0 : St} {Q : Addr → Prop} {rec : Addr → M CSt Addr} (hr : CloneOK h0 Q rec) (s s' : Shape)
    (hs : ShapeOK h0 s) (hQ : ∀ y, ShapeEdge h0 s y → Q y) (t t' : CSt) (hc : Ctx h0 t) (h : cloneShape rec s t = (.ok s', t')) :
    Post h0 Q t t' ∧ SameShape (MR h0 t'.memo) (fun x y => y = x) h0 t'.h s s' ∧ ShapeFresh h0 t'.h s' := by
  cases s with
  | array f =>
    obtain ⟨c, t1, h1, h2⟩ := M.bind_ok.1 h
    obtain ⟨rfl, rfl⟩ := M.ret_ok.1 h2
    obtain ⟨p1, m1⟩ := optBase_clone hr _ (fun x hx => hQ x (.items hx)) t t1 c hc h1
    exact ⟨p1, ⟨rfl, rfl, rfl, m1⟩, by constructor <;> simp⟩
  | object f =>
    obtain ⟨q1, t1, h1, h2⟩ := M.bind_ok.1 h
    obtain ⟨q2, t2, h3, h4⟩ := M.bind_ok.1 h2
    obtain ⟨rfl, rfl⟩ := M.ret_ok.1 h4
    obtain ⟨p1, m1, f1⟩ := propMap_clone hr _ hs.1 (fun q hq => hQ _ (.property hq)) t t1 q1 hc h1
    obtain ⟨p2, m2, f2⟩ := patPropMap_clone hr _ hs.2 (fun q hq => hQ _ (.pattern hq)) t1 t2 q2 p1.ctx h3
    have f1' : IfSome (fun i => h0.pmaps.length ≤ i ∧ i < t2.h.pmaps.length) q1 := by
      intro i hi
      have := f1 i hi
      have := p2.grow.heap.pmaps.length_le
      omega
    refine ⟨p1.trans p2, ⟨rfl, rfl, rfl, rfl, rfl, ?_, m2⟩, ?_⟩
    · refine BothOr.mono_of (fun x y _ hy hxy => ?_) m1
      rw [p2.grow.heap.props (f1 y hy).2]
      exact SameProps.mono (fun _ _ h => MR.mono p2.grow.memo h) hxy
    · constructor
      · rintro _ ⟨⟩; exact ⟨f1', f2⟩
      · simp
  | union l e =>
    obtain ⟨j, t1, h1, h2⟩ := M.bind_ok.1 h
    obtain ⟨rfl, rfl⟩ := M.ret_ok.1 h2
    obtain ⟨p1, m1, f1, f2⟩ := cloneSlice_clone hr l hs (fun m hm => hQ m (.member hm)) t t1 j hc h1
    refine ⟨p1, ⟨rfl, m1⟩, ?_⟩
    constructor
    · simp
    · rintro _ _ ⟨⟩; exact ⟨j, rfl, f1, f2⟩
  | _ =>
    obtain ⟨rfl, rfl⟩ := M.ret_ok.1 h
    exact ⟨.refl hc, by simp [SameShape], by constructor <;> simp⟩

theorem cloneLink_clone {h0 : St} {Q : Addr → Prop} {rec : Addr → M CSt Addr} (hr : CloneOK h0 Q rec) (p : Option Nat)
    (hp : IfSome (fun i => ∃ d a, h0.dts[i]? = some d ∧ d.shape = some a ∧ IsBase h0 a) p)
    (hQ : ∀ i d a, p = some i → h0.dts[i]? = some d → d.shape = some a → Q a) (t t' : CSt) (q : Option Nat) (hc : Ctx h0 t)
    (h : optM (cloneLink rec) p t = (.ok q, t')) : Post h0 Q t t' ∧
      BothOr (fun i j => ∃ d d', h0.dts[i]? = some d ∧ t'.h.dts[j]? = some d' ∧
        d'.location = d.location ∧ d'.uses = d.uses ∧ BothOr (MR h0 t'.memo) d.shape d'.shape) p q ∧
      IfSome (fun i => h0.dts.length ≤ i ∧ i < t'.h.dts.length) q := by
  cases p with
  | none =>
    obtain ⟨rfl, rfl⟩ := M.ret_ok.1 h
    exact ⟨.refl hc, trivial, by simp [IfSome]⟩
  | some i =>
    obtain ⟨c, t1, h1, h2⟩ := M.bind_ok.1 h
    obtain ⟨rfl, rfl⟩ := M.ret_ok.1 h2
    obtain ⟨d, a, h3, h4, h5⟩ := hp i rfl
    unfold cloneLink at h1
    rw [prefix_get hc.heap.dts h3] at h1
    simp only [h4] at h1
    obtain ⟨x, t2, h6, h7⟩ := M.bind_ok.1 h1
    obtain ⟨p1, m1⟩ := hr a t x t2 hc (hQ i d a rfl h3 h4) h6
    simp only [onHeap, Heap.newDT, Prod.mk.injEq, Out.ok.injEq] at h7
    obtain ⟨rfl, rfl⟩ := h7
    refine ⟨p1.trans (.alloc p1.ctx (unchanged_dts _ _)), ?_, ?_⟩
    · exact ⟨d, { d with shape := some x }, h3, by simp, rfl, rfl, by rw [h4]; exact m1⟩
    · rintro _ ⟨⟩; exact ⟨p1.ctx.heap.dts.length_le, by simp⟩

theorem facets_clone {h0 : St} {Q : Addr → Prop} (s : Base) (hs : IfSome (fun i => ∃ m, h0.fmaps[i]? = some m) s.facets)
    (t t' : CSt) (hc : Ctx h0 t) (j : Nat)
    (h : onHeap (Heap.newFacets (t.h.facetMap s.facets)) t = (.ok j, t')) :
    Post h0 Q t t' ∧ t'.h.facetMap (some j) = h0.facetMap s.facets ∧
      h0.fmaps.length ≤ j ∧ j < t'.h.fmaps.length := by
  have heq : t.h.facetMap s.facets = h0.facetMap s.facets := by
    cases hf : s.facets with
    | none => rfl
    | some i =>
      obtain ⟨m, hm⟩ := hs i hf
      exact hc.heap.facetMap (lt_of_get hm)
  rw [heq] at h
  simp only [onHeap, Heap.newFacets, Prod.mk.injEq, Out.ok.injEq] at h
  obtain ⟨rfl, rfl⟩ := h
  exact ⟨.alloc hc (unchanged_fmaps _ _), by simp [St.facetMap], hc.heap.fmaps.length_le, by simp⟩

theorem memoGet_cons (i j : Int) (c : Addr) (μ : List (Int × Addr)) :
    memoGet ((i, c) :: μ) j = if i = j then some c else memoGet μ j := rfl

/-- Filling in the copy at `c`, which was allocated and registered just before. -/
theorem cloneFill_clone {h0 : St} (hw : WellFormed h0) {rec : Addr → M CSt Addr} (hr : CloneOK h0 Q rec)
    (hQ : ∀ x y, Q x → Edge h0 x y → Q y) (a : Addr) (ha : Q a) (s : Base) (hs : h0.base a = some s) (t0 t : CSt) (hc0 : Ctx h0 t0)
    (ht : t = ⟨{ t0.h with bases := t0.h.bases ++ [s] }, (s.id, t0.h.bases.length) :: t0.memo⟩)
    (hnone : memoGet t0.memo s.id = none) (c : Addr) (t' : CSt)
    (h : cloneFill rec s t0.h.bases.length t = (.ok c, t')) :
    Post h0 Q t0 t' ∧ c = t0.h.bases.length ∧ memoGet t'.memo s.id = some c := by
  have hb := hw a s hs
  have hc : Ctx h0 t := by
    subst ht
    refine ⟨hc0.heap.trans (unchanged_bases _ _), fun i c hi => ?_⟩
    rw [memoGet_cons] at hi
    split at hi
    · cases hi; exact hc0.heap.bases.length_le
    · exact hc0.fresh i c hi
  unfold cloneFill at h
  obtain ⟨fm, t1, h1, h⟩ := M.bind_ok.1 h
  obtain ⟨fd, t2, h2, h⟩ := M.bind_ok.1 h
  obtain ⟨al, t3, h3, h⟩ := M.bind_ok.1 h
  obtain ⟨inh, t4, h4, h⟩ := M.bind_ok.1 h
  obtain ⟨lk, t5, h5, h⟩ := M.bind_ok.1 h
  obtain ⟨sh, hsh, hshok⟩ := hb.shape
  rw [hsh] at h
  simp only at h
  obtain ⟨sh', t6, h6, h⟩ := M.bind_ok.1 h
  obtain ⟨u, t7, h7, h⟩ := M.bind_ok.1 h
  obtain ⟨rfl, rfl⟩ := M.ret_ok.1 h
  -- run the pieces
  obtain ⟨p1, m1, f1, f1'⟩ := facets_clone (Q := Q) s hb.facets t t1 hc fm h1
  have hfd : t1.h.props s.facetDefs = h0.props s.facetDefs ∧ ∀ p ∈ h0.props s.facetDefs, Q p.2.base := by
    refine ⟨?_, fun p hp => hQ a _ ha (.facet hs hp)⟩
    cases hf : s.facetDefs with
    | none => rfl
    | some i =>
      obtain ⟨m, hm, hm'⟩ := hb.facetDefs i hf
      exact p1.ctx.heap.props (lt_of_get hm)
  rw [hfd.1] at h2
  obtain ⟨p2, m2, f2, f2'⟩ := allocProps_clone hr _ t1 t2 fd p1.ctx hfd.2 h2
  obtain ⟨p3, m3⟩ := optBase_clone hr _ (fun y hy => hQ a y ha (.aliased hs hy)) t2 t3 al p2.ctx h3
  obtain ⟨p4, m4, f4⟩ : Post h0 Q t3 t4 ∧
      BothOr (fun i j => List.Forall₂ (MR h0 t4.memo) (h0.slice (some i)) (t4.h.slice (some j))) s.inherits inh ∧
      IfSome (fun i => h0.slices.length ≤ i ∧ i < t4.h.slices.length) inh := by
    cases hi : s.inherits with
    | none =>
      rw [hi] at h4
      obtain ⟨rfl, rfl⟩ := M.ret_ok.1 h4
      exact ⟨.refl p3.ctx, trivial, by simp [IfSome]⟩
    | some i =>
      rw [hi] at h4
      obtain ⟨j, t8, h8, h9⟩ := M.bind_ok.1 h4
      obtain ⟨rfl, rfl⟩ := M.ret_ok.1 h9
      obtain ⟨q, m, f, f'⟩ := cloneSlice_clone hr (some i) (by
        intro x hx; exact hb.inherits x (by rw [hi]; exact hx))
        (fun y hy => hQ a y ha (.parent hs (by rw [hi]; exact hy))) t3 t8 j p3.ctx h8
      exact ⟨q, m, by rintro _ ⟨⟩; exact ⟨f, f'⟩⟩
  obtain ⟨p5, m5, f5⟩ := cloneLink_clone hr _ hb.link (fun i d y h1 h2 h3 => hQ a y ha (.linked hs h1 h2 h3)) t4 t5 lk p4.ctx h5
  obtain ⟨p6, m6, f6⟩ := cloneShape_clone hr sh sh' hshok
    (fun y hy => hQ a y ha (.shape (by simp [St.shapeAt, hs, hsh]) hy)) t5 t6 p5.ctx h6
  have pall : Post h0 Q t t6 := p1.trans (p2.trans (p3.trans (p4.trans (p5.trans p6))))
  have g26 : Grow t2 t6 := p3.grow.trans (p4.grow.trans (p5.grow.trans p6.grow))
  have g16 : Grow t1 t6 := p2.grow.trans g26
  have g36 : Grow t3 t6 := p4.grow.trans (p5.grow.trans p6.grow)
  have g46 : Grow t4 t6 := p5.grow.trans p6.grow
  have g56 : Grow t5 t6 := p6.grow
  simp only [onHeap, Heap.updBase, Prod.mk.injEq, Out.ok.injEq] at h7
  obtain ⟨_, rfl⟩ := h7
  set c := t0.h.bases.length with hcdef
  set nb : Base := { s with facets := some fm, facetDefs := some fd, «alias» := al, inherits := inh, link := lk, shape := some sh' } with hnb
  have htlen : t.h.bases.length = c + 1 := by subst ht; simp [hcdef]
  have hclt : c < t6.h.bases.length := by
    have := pall.grow.heap.bases.length_le; omega
  -- heap after the update
  have hset : t6.h.bases.modify c (fun _ => nb) = t6.h.bases.set c nb := by
    apply List.ext_getElem?
    intro i
    rw [List.getElem?_modify, List.getElem?_set]
    by_cases hic : c = i
    · subst hic; simp [hclt]
    · simp [hic]
  rw [hset]
  set h7 : St := { t6.h with bases := t6.h.bases.set c nb } with hh7
  have ht0t : Unchanged t0.h t.h := by subst ht; exact unchanged_bases _ _
  have ht06 : Unchanged t0.h t6.h := ht0t.trans pall.grow.heap
  have ht07 : Unchanged t0.h h7 := by
    refine { ht06 with bases := ?_ }
    obtain ⟨suf, hsuf⟩ := ht06.bases
    refine ⟨suf.set 0 nb, ?_⟩
    simp only [hh7, ← hsuf]
    rw [List.set_append]; simp [hcdef]
  -- cells other than `c` are as before
  have hbase7 : ∀ x, x ≠ c → h7.base x = t6.h.base x := by
    intro x hx
    simp only [St.base, hh7, List.getElem?_set]
    rw [if_neg (by omega)]
  have hbasec : h7.base c = some nb := by
    simp [St.base, hh7, List.getElem?_set, hclt]
  have hfresh : FreshParts h0 h7 nb := by
    have e1 := g16.heap.fmaps.length_le
    have e2 := g26.heap.pmaps.length_le
    have e4 := g46.heap.slices.length_le
    have e5 := g56.heap.dts.length_le
    constructor
    · rintro _ ⟨⟩; exact ⟨f1, by show fm < t6.h.fmaps.length; omega⟩
    · rintro _ ⟨⟩; exact ⟨f2, by show fd < t6.h.pmaps.length; omega⟩
    · intro i hi; have := f4 i hi; exact ⟨this.1, by show i < t6.h.slices.length; omega⟩
    · intro i hi; have := f5 i hi; exact ⟨this.1, by show i < t6.h.dts.length; omega⟩
    · intro f hf
      have hf : sh' = .object f := by simpa [hnb] using hf
      exact f6.object f hf
    · intro l e hf
      have hf : sh' = .union l e := by simpa [hnb] using hf
      exact f6.union l e hf
  have hsame : SameBase (MR h0 t6.memo) (fun x y => y = x) h0 h7 s nb := by
    constructor <;> try rfl
    · show t6.h.facetMap (some fm) = _
      rw [g16.heap.facetMap f1']; exact m1
    · show SameProps _ _ (t6.h.props (some fd))
      rw [g26.heap.props f2']
      exact SameProps.mono (fun _ _ h => MR.mono g26.memo h) m2
    · exact BothOr.mono (fun _ _ h => MR.mono g36.memo h) m3
    · refine BothOr.mono_of (fun x y _ hy hxy => ?_) m4
      show List.Forall₂ _ _ (t6.h.slice (some y))
      rw [g46.heap.slice (f4 y hy).2]
      exact List.Forall₂.imp (fun _ _ h => MR.mono g46.memo h) hxy
    · refine BothOr.mono_of (fun x y _ hy hxy => ?_) m5
      obtain ⟨d, d', e1, e2, e3, e4, e5⟩ := hxy
      exact ⟨d, d', e1, prefix_get g56.heap.dts e2, e3, e4, BothOr.mono (fun _ _ h => MR.mono g56.memo h) e5⟩
    · rw [hsh]
      exact m6
  have hmemoc : memoGet t6.memo s.id = some c := by
    refine pall.grow.memo _ _ ?_
    subst ht; simp [memoGet_cons]
  refine ⟨⟨⟨ht07, ?_⟩, ⟨hc0.heap.trans ht07, pall.ctx.fresh⟩, ?_⟩, rfl, hmemoc⟩
  · intro i x hx
    refine pall.grow.memo i x ?_
    subst ht
    rw [memoGet_cons]
    split
    · rename_i he; subst he; rw [hnone] at hx; cases hx
    · exact hx
  · intro i x hx hxn
    have hlen7 : h7.bases.length = t6.h.bases.length := by simp [hh7]
    by_cases hi : i = s.id
    · subst hi
      have hx : memoGet t6.memo s.id = some x := hx
      rw [hmemoc] at hx; cases hx
      exact ⟨le_refl _, by show c < h7.bases.length; omega, a, s, nb, ha, hs, rfl, hbasec, hsame, hfresh⟩
    · have hn : memoGet t.memo i = none := by
        subst ht; rw [memoGet_cons, if_neg (fun h => hi h.symm)]; exact hxn
      obtain ⟨q1, q2, y, b, b', r0, r1, r2, r3, r4, r5⟩ := pall.done i x hx hn
      refine ⟨by omega, by rw [hlen7]; exact q2, y, b, b', r0, r1, r2, ?_, ?_, ?_⟩
      · show h7.base x = _
        rw [hbase7 x (by omega)]; exact r3
      · exact { r4 with }
      · exact { r5 with }

/-- Every nested call of `clone` meets its specification. -/
theorem clone_ok_spec {h0 : St} {Q : Addr → Prop} (hw : WellFormed h0)
    (hQ : ∀ x y, Q x → Edge h0 x y → Q y) (hQb : ∀ x, Q x → IsBase h0 x) (n : Nat) : CloneOK h0 Q (clone n) := by
  induction n with
  | zero => intro a t c t' _ _ h; simp [clone, M.diverge] at h
  | succ n ih =>
    intro a t c t' hc ha h
    unfold clone at h
    obtain ⟨s, t1, h1, h⟩ := M.bind_ok.1 h
    obtain ⟨b, hb⟩ := get_of_lt (hQb a ha)
    have hb' : h0.base a = some b := hb
    simp only [onHeap, Heap.getBase, hc.heap.base hb', Prod.mk.injEq, Out.ok.injEq] at h1
    obtain ⟨rfl, rfl⟩ := h1
    obtain ⟨t2, t3, h2, h⟩ := M.bind_ok.1 h
    obtain ⟨rfl, rfl⟩ := M.get_ok.1 h2
    cases hn : memoGet t.memo b.id with
    | some c' =>
      simp only [hn] at h
      obtain ⟨rfl, rfl⟩ := M.ret_ok.1 h
      exact ⟨.refl hc, b, hb', hn⟩
    | none =>
      simp only [hn] at h
      obtain ⟨c1, t4, h3, h⟩ := M.bind_ok.1 h
      obtain ⟨_, t5, h4, h⟩ := M.bind_ok.1 h
      simp only [onHeap, Heap.newBase, Prod.mk.injEq, Out.ok.injEq] at h3
      obtain ⟨rfl, rfl⟩ := h3
      simp only [memoPut, Prod.mk.injEq] at h4
      obtain ⟨_, rfl⟩ := h4
      obtain ⟨p, rfl, m⟩ := cloneFill_clone hw ih hQ a ha b hb' t _ hc rfl hn c t' h
      exact ⟨p, b, hb', m⟩

end GoRaml
