import Verif.Lemmas.Whole

/-!
# Cloning and inheritance keep a model well-formed and do not panic
-/

namespace GoRaml.Whole

open GoRaml GoRaml.Spec GoRaml.Load

variable {K : Par}

theorem BaseFine.grow {s s' : St} (g : Bigger s s') {b : Base} (h : BaseFine K s b) : BaseFine K s' b := h.mono g.longer

theorem ShapeIn.grow {s s' : St} (g : Bigger s s') {b : Shape} (h : ShapeIn s b) : ShapeIn s' b := Load.ShapeIn.mono g.longer h

/-! ## Cloning -/

/-- A well-formed model and a clone map into it. -/
def CWf (K : Par) (t : CSt) : Prop := Wf K t.h ∧ ∀ e ∈ t.memo, IsBase t.h e.2

/-- `Bigger` on the heaps. -/
def CBigger (t t' : CSt) : Prop := Bigger t.h t'.h

theorem CBigger.refl (t : CSt) : CBigger t t := Bigger.refl t.h

theorem CBigger.trans {a b c : CSt} (h : CBigger a b) (k : CBigger b c) : CBigger a c := Bigger.trans h k

/-- Safe on well-formed models with a clone map. -/
abbrev FineC {α : Type} (K : Par) (m : M CSt α) (t : CSt) (Q : α → CSt → Prop) : Prop := Safe K.X (CWf K) CBigger m t Q

theorem FineC.bind {α β : Type} {m : M CSt α} {f : α → M CSt β} {s : CSt} {Q : α → CSt → Prop} {Q' : β → CSt → Prop} (h1 : FineC K m s Q)
    (h2 : ∀ x s', CWf K s' → CBigger s s' → Q x s' → FineC K (f x) s' Q') : FineC K (M.bind m f) s Q' :=
  Safe.bind (I := CWf K) (R := CBigger) (fun _ _ _ h k => CBigger.trans h k) h1 h2

theorem FineC.ret {α : Type} {x : α} {s : CSt} {Q : α → CSt → Prop} (hw : CWf K s) (hq : Q x s) : FineC K (M.ret x) s Q := Safe.ret CBigger.refl hw hq

theorem FineC.onHeap {α : Type} {m : M St α} {t : CSt} {Q : α → St → Prop} (hw : CWf K t) (h : Fine K m t.h Q) : FineC K (onHeap m) t fun x t' => Q x t'.h :=
  ⟨⟨h.1, fun e he => h.2.1.isBase (hw.2 e he)⟩, h.2.1, h.2.2⟩

/-- What the recursive call of a cloning function does. -/
def CRec (K : Par) (rec : Addr → M CSt Addr) : Prop := ∀ a t, CWf K t → IsBase t.h a → FineC K (rec a) t fun c t' => IsBase t'.h c

section
variable {rec : Addr → M CSt Addr} (hr : CRec K rec) {t : CSt}
include hr

theorem cloneProps_fine {ps : OMap Property} (hw : CWf K t) (hp : ∀ e ∈ ps, IsBase t.h e.2.base) :
    FineC K (cloneProps rec ps) t fun ps' t' => ∀ e ∈ ps', IsBase t'.h e.2.base := by
  refine Safe.collect CBigger.refl (fun _ _ _ => CBigger.trans) (P := fun (e : String × Property) t' => IsBase t'.h e.2.base) (fun _ _ _ g h => Bigger.isBase g h) hw fun x hx t' hw' g => ?_
  exact FineC.bind (hr _ _ hw' (Bigger.isBase g (hp x hx))) fun c t2 hw2 _ hc => FineC.ret hw2 hc

theorem clonePatProps_fine {ps : OMap PatternProperty} (hw : CWf K t) (hp : ∀ e ∈ ps, IsBase t.h e.2.base) :
    FineC K (clonePatProps rec ps) t fun ps' t' => ∀ e ∈ ps', IsBase t'.h e.2.base := by
  refine Safe.collect CBigger.refl (fun _ _ _ => CBigger.trans) (P := fun (e : String × PatternProperty) t' => IsBase t'.h e.2.base) (fun _ _ _ g h => Bigger.isBase g h) hw fun x hx t' hw' g => ?_
  exact FineC.bind (hr _ _ hw' (Bigger.isBase g (hp x hx))) fun c t2 hw2 _ hc => FineC.ret hw2 hc

theorem clonePropMap_fine {i : Nat} (hw : CWf K t) : FineC K (clonePropMap rec i) t fun j t' => j < t'.h.pmaps.length :=
  FineC.bind (cloneProps_fine hr hw fun _ he => hw.1.propsOf he) fun _ _ hw2 _ hq => FineC.onHeap hw2 (Fine.newProps hw2.1 hq)

theorem clonePatPropMap_fine {i : Nat} (hw : CWf K t) : FineC K (clonePatPropMap rec i) t fun j t' => j < t'.h.ppmaps.length :=
  FineC.bind (clonePatProps_fine hr hw fun _ he => hw.1.patPropsOf he) fun _ _ hw2 _ hq => FineC.onHeap hw2 (Fine.newPatProps hw2.1 hq)

theorem cloneSlice_fine {i : Option Nat} (hw : CWf K t) : FineC K (cloneSlice rec i) t fun j t' => j < t'.h.slices.length := by
  refine FineC.bind (Safe.collect CBigger.refl (fun _ _ _ => CBigger.trans) (P := fun e t' => IsBase t'.h e) (fun _ _ _ g h => Bigger.isBase g h) hw
    fun x hx t' hw' g => hr _ _ hw' (Bigger.isBase g (hw.1.sliceOf hx))) fun _ _ hw2 _ hq => FineC.onHeap hw2 (Fine.newSlice hw2.1 hq)

omit hr in
theorem optM_fine {α β : Type} {f : α → M CSt β} {o : Option α} {P : β → CSt → Prop} (hw : CWf K t) (h : ∀ a, o = some a → FineC K (f a) t P) :
    FineC K (optM f o) t fun r t' => ∀ b, r = some b → P b t' := by
  cases o with
  | none => exact FineC.ret hw fun b hb => by cases hb
  | some a => exact FineC.bind (h a rfl) fun b t' hw' _ hq => FineC.ret hw' fun b' hb' => by cases hb'; exact hq

theorem cloneShape_fine {sh : Shape} (hw : CWf K t) (h1 : ShapeIn t.h sh) (h2 : ShapeFine K sh) :
    FineC K (cloneShape rec sh) t fun sh' t' => ShapeIn t'.h sh' ∧ ShapeFine K sh' := by
  cases sh with
  | array f =>
    exact FineC.bind (optM_fine hw fun a ha => hr a t hw (h1 a ha)) fun items t' hw' _ hq => FineC.ret hw' ⟨hq, trivial⟩
  | object f =>
    refine FineC.bind (optM_fine hw fun i _ => clonePropMap_fine hr hw) fun ps t' hw' _ hq => ?_
    refine FineC.bind (optM_fine hw' fun i _ => clonePatPropMap_fine hr hw') fun pps t2 hw2 g2 hq2 => ?_
    exact FineC.ret hw2 ⟨⟨fun i hi => Nat.lt_of_lt_of_le (hq i hi) g2.longer.pmaps, hq2⟩, h2⟩
  | union l e =>
    exact FineC.bind (cloneSlice_fine hr hw) fun i t' hw' _ hq => FineC.ret hw' ⟨fun j hj => by cases hj; exact hq, trivial⟩
  | unknown f => exact h2.elim
  | _ => exact FineC.ret hw ⟨h1, h2⟩

theorem cloneLink_fine {i : Nat} (hw : CWf K t) (hi : i < t.h.dts.length) : FineC K (cloneLink rec i) t fun j t' => j < t'.h.dts.length := by
  have hd := List.getElem?_eq_getElem hi
  obtain ⟨a, ha, hb⟩ := (hw.1.dt _ (List.getElem_mem hi)).shape
  have hu := (hw.1.dt _ (List.getElem_mem hi)).uses
  refine Safe.congr (m := M.bind (rec a) fun c => GoRaml.onHeap (Heap.newDT { t.h.dts[i] with shape := some c })) (by unfold cloneLink; rw [hd]; simp only [ha]) ?_
  exact FineC.bind (hr a t hw hb) fun c t' hw' g hc => FineC.onHeap hw' (Fine.newDT (d := { t.h.dts[i] with shape := some c }) hw'.1 ⟨⟨c, rfl, hc⟩, hu.mono g.longer⟩)

theorem cloneFill_fine {b : Base} {c : Addr} (hw : CWf K t) (hb : BaseFine K t.h b) (hc : IsBase t.h c) :
    FineC K (cloneFill rec b c) t fun r t' => IsBase t'.h r := by
  refine FineC.bind (FineC.onHeap hw (Fine.newFacets hw.1 fun _ he => hw.1.facetsOf he)) fun fm t1 hw1 g1 q1 => ?_
  refine FineC.bind (Q := fun j t' => j < t'.h.pmaps.length) (FineC.bind (cloneProps_fine hr hw1 fun _ he => hw1.1.propsOf he)
    fun _ _ hw2 _ hq => FineC.onHeap hw2 (Fine.newProps hw2.1 hq)) fun fd t2 hw2 g2 q2 => ?_
  have g02 : Bigger t.h t2.h := Bigger.trans g1 g2
  refine FineC.bind (optM_fine hw2 fun a ha => hr a t2 hw2 (g02.isBase (hb.ptrs.alias a ha))) fun al t3 hw3 g3 q3 => ?_
  refine FineC.bind (optM_fine hw3 fun i _ => cloneSlice_fine hr hw3) fun inh t4 hw4 g4 q4 => ?_
  have g24 : Bigger t2.h t4.h := Bigger.trans g3 g4
  have g04 : Bigger t.h t4.h := Bigger.trans g02 g24
  refine FineC.bind (optM_fine hw4 fun i hi => cloneLink_fine hr hw4 (Nat.lt_of_lt_of_le (hb.ptrs.link i hi) g04.longer.dts)) fun lk t5 hw5 g5 q5 => ?_
  have g05 : Bigger t.h t5.h := Bigger.trans g04 g5
  obtain ⟨sh, hs, hf⟩ := hb.shape
  rw [hs]
  refine FineC.bind (cloneShape_fine hr hw5 (ShapeIn.grow g05 (hb.ptrs.shape sh hs)) hf) fun sh' t6 hw6 g6 q6 => ?_
  have g16 : Bigger t1.h t6.h := Bigger.trans g2 (Bigger.trans g24 (Bigger.trans g5 g6))
  have g26 : Bigger t2.h t6.h := Bigger.trans g24 (Bigger.trans g5 g6)
  have g36 : Bigger t3.h t6.h := Bigger.trans g4 (Bigger.trans g5 g6)
  have g46 : Bigger t4.h t6.h := Bigger.trans g5 g6
  have g06 : Bigger t.h t6.h := Bigger.trans g05 g6
  refine FineC.bind (FineC.onHeap hw6 (Fine.upd hw6.1 fun _ _ _ => ?_)) fun _ t7 hw7 g7 _ => FineC.ret hw7 (Bigger.isBase g7 (g06.isBase hc))
  exact
    ⟨{ shape := fun x hx => by cases hx; exact q6.1
       facets := ⟨fm, rfl, Nat.lt_of_lt_of_le q1 g16.longer.fmaps⟩
       facetDefs := fun x hx => by cases hx; exact Nat.lt_of_lt_of_le q2 g26.longer.pmaps
       «alias» := fun x hx => g36.isBase (q3 x hx)
       inherits := fun x hx => Nat.lt_of_lt_of_le (q4 x hx) g46.longer.slices
       link := fun x hx => Nat.lt_of_lt_of_le (q5 x hx) g6.longer.dts },
     ⟨sh', rfl, q6.2⟩, ⟨hb.vals.example, hb.vals.examples, hb.vals.default⟩⟩

end

theorem memoGet_mem {m : List (Int × Addr)} {i : Int} {c : Addr} (h : memoGet m i = some c) : ∃ j, (j, c) ∈ m := by
  induction m with
  | nil => cases h
  | cons x m ih =>
    obtain ⟨j, d⟩ := x
    unfold memoGet at h
    split at h
    · cases h; exact ⟨j, by simp⟩
    · obtain ⟨k, hk⟩ := ih h; exact ⟨k, by simp [hk]⟩

theorem clone_fine : ∀ n, CRec K (clone n)
  | 0 => fun a t hw _ => Safe.diverge CBigger.refl hw
  | n + 1 => fun a t hw ha => by
    refine FineC.bind (FineC.onHeap hw (Fine.getBase hw.1 ha)) fun b t' hw' g hq => ?_
    obtain ⟨he, hb, hf⟩ := hq
    refine Safe.get ?_
    cases hm : memoGet t'.memo b.id with
    | some c =>
      obtain ⟨j, hj⟩ := memoGet_mem hm
      exact FineC.ret hw' (hw'.2 _ hj)
    | none =>
      refine FineC.bind (FineC.onHeap hw' (Fine.newBase hw'.1 (hf.grow g))) fun c t2 hw2 g2 hc => ?_
      refine FineC.bind (Q := fun _ t' => IsBase t'.h c ∧ t'.h = t2.h)
        ⟨⟨hw2.1, fun e he => (List.mem_cons.1 he).elim (fun h => by rw [h]; exact hc.1) (hw2.2 e)⟩, Bigger.refl _, hc.1, rfl⟩ fun _ t3 hw3 _ hq3 => ?_
      refine cloneFill_fine (clone_fine n) hw3 ?_ hq3.1
      rw [hq3.2]
      exact hf.grow (Bigger.trans g g2)

theorem cloneDetached_fine {n : Nat} {a : Addr} {s : St} (hw : Wf K s) (ha : IsBase s a) : Fine K (cloneDetached n a) s fun c s' => IsBase s' c := by
  have h := clone_fine n a ⟨s, []⟩ ⟨hw, fun _ he => by cases he⟩ ha
  exact ⟨h.1.1, h.2.1, h.2.2⟩

end GoRaml.Whole
