import Verif.Lemmas.EmbedUnwrap
import Verif.Lemmas.EmbedSpec
import Verif.Lemmas.KeepId
import Verif.Lemmas.CloneTotal
import Verif.Lemmas.WholeLoaded
import Verif.Model.ValidateAll

/-!
# The unwrapped copy that validation makes of a type is the same in every larger model
-/

namespace GoRaml.Emb

open GoRaml GoRaml.Spec GoRaml.Load GoRaml.Whole

/-- Unwrapping and marking a copy. -/
def prepare (n : Nat) (c : Addr) : M St Addr := M.bind (unwrap n c) fun us => M.bind (mark n us) fun _ => M.ret us

/-- The copy of a type that validation looks at. -/
def copyOf (n : Nat) (a : Addr) : M St Addr := M.bind (cloneDetached n a) (prepare n)

/-- The same, in a heap of its own. -/
def copyR (src : St) (c : Int) (n : Nat) (a : Addr) : Out Addr × St :=
  M.bind (fun _ => ((cloneR src n a ⟨blank c, []⟩).1, (cloneR src n a ⟨blank c, []⟩).2.h)) (prepare n) (blank c)

theorem prepare_com {e : Place} (n : Nat) (a : Addr) (s : St) : Com e.at' e.sb (prepare n a) (prepare n (e.sb a)) s := by
  refine Com.bind (Place.unwrap_com n a s) fun us s1 => ?_
  refine Com.bind (Place.mark_com n us s1) fun _ _ => Com.ret rfl

theorem prepare_at {n m : Nat} (h : n ≤ m) (a : Addr) (s : St) : Fuel.At (prepare n a) (prepare m a) s :=
  (Fuel.unwrap_at n m h a s).bind fun us s1 => (Fuel.mark_at n m h us s1).bind fun _ _ => .rfl

theorem copyOf_at {n m : Nat} (h : n ≤ m) (a : Addr) (s : St) : Fuel.At (copyOf n a) (copyOf m a) s :=
  (Fuel.cloneDetached_at h a s).bind fun c s1 => prepare_at h c s1

/-- Cloning a type of a well-formed model ends well, or the bound was too small. -/
theorem clone_outcome {s : St} (hw : WellFormed s) {a : Addr} (ha : IsBase s a) (n : Nat) :
    (∃ c s', cloneDetached n a s = (.ok c, s')) ∨ (cloneDetached n a s).1 = .diverge := by
  by_cases hd : (cloneDetached n a s).1 = .diverge
  · exact Or.inr hd
  · have h1 := Fuel.cloneDetached_at (m := n + s.bases.length + 1) (by omega : n ≤ n + s.bases.length + 1) a s hd
    obtain ⟨c, s', h2⟩ := cloneDetached_total hw ha (n + s.bases.length + 1) (by omega)
    exact Or.inl ⟨c, s', by rw [← h1, h2]⟩

theorem clone_unchanged {s s' : St} (hw : WellFormed s) {a c : Addr} (ha : IsBase s a) {n : Nat} (h : cloneDetached n a s = (.ok c, s')) : Unchanged s s' := by
  obtain ⟨_, u, _⟩ := cloneMany_spec hw (by simpa using ha) ((cloneDetached_eq n a c s s').1 h)
  exact u

/-- The copy has the ID of the original. -/
theorem clone_id {s s' : St} (hw : WellFormed s) {a c : Addr} {b : Base} (hb : s.base a = some b) {n : Nat} (h : cloneDetached n a s = (.ok c, s')) :
    ∃ b', s'.base c = some b' ∧ b'.id = b.id := by
  have ha : IsBase s a := (List.getElem?_eq_some_iff.1 hb).1
  obtain ⟨μ, u, h2, h3⟩ := cloneMany_spec hw (by simpa using ha) ((cloneDetached_eq n a c s s').1 h)
  obtain ⟨b0, hb0, hm⟩ : MR s μ a c := by cases h2; assumption
  rw [hb] at hb0; cases hb0
  obtain ⟨_, _, x0, b1, b', hq, h4, h5, h6, h7, h8⟩ := h3 _ _ hm
  exact ⟨b', h6, h7.id.trans h5⟩

section
variable {src t : St} {c : Int} (ab : Above src t) (hs : Source src c) (h : c ≤ t.idCounter)

include hs in
theorem cloneR_outcome (hc : c = src.idCounter) (n : Nat) {a : Addr} (ha : IsBase src a) :
    (∃ x, (cloneR src n a ⟨blank c, []⟩).1 = .ok x ∧ (cloneR src n a ⟨blank c, []⟩).2.h.idCounter = c) ∨ (cloneR src n a ⟨blank c, []⟩).1 = .diverge := by
  obtain ⟨T', h1, h2⟩ := cloneDetached_source (Above.refl src) hs (by omega) n ha
  rcases clone_outcome hs.wf ha n with ⟨x, s', h3⟩ | h3
  · cases ho : (cloneR src n a ⟨blank c, []⟩).1 with
    | ok y =>
      have h4 := h2 y ho
      have h5 := (clone_unchanged hs.wf ha (h1.trans (by rw [ho]; rfl))).idCounter
      rw [h4] at h5
      refine Or.inl ⟨y, rfl, ?_⟩
      simp only [Place.embed, behind] at h5
      omega
    | err e => rw [h1, ho] at h3; cases h3
    | panic e => rw [h1, ho] at h3; cases h3
    | diverge => exact Or.inr rfl
  · rw [h1] at h3
    cases ho : (cloneR src n a ⟨blank c, []⟩).1 with
    | diverge => exact Or.inr rfl
    | ok y => rw [ho] at h3; cases h3
    | err e => rw [ho] at h3; cases h3
    | panic e => rw [ho] at h3; cases h3

include ab hs in
/-- The copy made in any larger model is the one made in a heap of its own, placed behind the model. -/
theorem copyOf_source (hc : c = src.idCounter) (n : Nat) {a : Addr} (ha : IsBase src a) :
    ((copyR src c n a).1 = .diverge ∧ (copyOf n a t).1 = .diverge) ∨
    (copyOf n a t = (out (behind t c h).sb (copyR src c n a).1, (behind t c h).embed (copyR src c n a).2) ∧ c ≤ (copyR src c n a).2.idCounter) := by
  obtain ⟨T', h1, h2⟩ := cloneDetached_source ab hs h n ha
  rcases cloneR_outcome hs hc n ha with ⟨x, ho, hi⟩ | ho
  · refine Or.inr ?_
    have h3 := h2 x ho
    have h4 := prepare_com (e := behind t c h) n x (cloneR src n a ⟨blank c, []⟩).2.h (show c ≤ _ by omega)
    have e1 : copyR src c n a = prepare n x (cloneR src n a ⟨blank c, []⟩).2.h := by
      unfold copyR M.bind
      simp only [ho]
    have e2 : copyOf n a t = prepare n ((behind t c h).sb x) ((behind t c h).embed (cloneR src n a ⟨blank c, []⟩).2.h) := by
      unfold copyOf M.bind
      rw [h1, ho]
      simp only [out, h3]
    rw [e1, e2]
    exact h4
  · refine Or.inl ⟨?_, ?_⟩
    · unfold copyR M.bind; simp only [ho]
    · unfold copyOf M.bind; rw [h1, ho]; rfl

end

/-! ## The model stays well-formed -/

theorem wf_congr {K : Par} {s s' : St} (hw : Wf K s) (h1 : s'.bases = s.bases) (h2 : s'.pmaps = s.pmaps) (h3 : s'.ppmaps = s.ppmaps) (h4 : s'.slices = s.slices)
    (h5 : s'.fmaps = s.fmaps) (h6 : s'.libs = s.libs) (h7 : s'.dts = s.dts) (h8 : s'.domainExts = s.domainExts) (h9 : s'.fragAnnotationTypes = s.fragAnnotationTypes)
    (h10 : s'.nes = s.nes) : Wf K s' := by
  have g : Longer s s' := ⟨by rw [h1], by rw [h2], by rw [h3], by rw [h5], by rw [h4], by rw [h6], by rw [h7], by rw [h10]⟩
  have hb : ∀ {a}, IsBase s a → IsBase s' a := fun ha => Nat.lt_of_lt_of_le ha g.bases
  refine ⟨fun a b hab => ?_, ?_, ?_, ?_, ?_, ?_, ?_, ?_, ?_⟩
  · have := hw.base a b (by simpa [St.base, h1] using hab)
    exact ⟨this.ptrs.mono g, this.shape, this.vals⟩
  · rw [h2]; exact fun m hm e he => hb (hw.props m hm e he)
  · rw [h3]; exact fun m hm e he => hb (hw.patProps m hm e he)
  · rw [h4]; exact fun m hm e he => hb (hw.slices m hm e he)
  · rw [h5]; exact hw.fmaps
  · rw [h6]; exact fun l hl => (hw.lib l hl).mono g
  · rw [h7]; exact fun l hl => (hw.dt l hl).mono g
  · rw [h8]; exact fun d hd a ha => hb (hw.exts d hd a ha)
  · rw [h9]; exact fun e he x hx => hb (hw.anns e he x hx)

theorem copyOf_fine {K : Par} [K.Rec] (n : Nat) {a : Addr} {s : St} (hw : Wf K s) (ha : IsBase s a) : Fine K (copyOf n a) s fun u s' => IsBase s' u := by
  refine Fine.bind (cloneDetached_fine hw ha) fun c s1 hw1 _ hc => ?_
  refine Fine.bind (unwrap_fine n c s1 hw1 hc) fun us s2 hw2 _ hus => ?_
  refine Fine.bind (mark_fine n us s2 hw2 hus) fun _ s3 hw3 g3 _ => Fine.ret hw3 (g3.isBase hus)

theorem above_cleared {s t : St} : Above s (cleared t) ↔ Above s t := ⟨fun h => ⟨h.1, h.2, h.3, h.4, h.5, h.6⟩, fun h => ⟨h.1, h.2, h.3, h.4, h.5, h.6⟩⟩

theorem wellFormed_cleared {s : St} : WellFormed (cleared s) ↔ WellFormed s := by
  constructor
  · intro h a b hb
    obtain ⟨h1, h2, h3, h4, h5, h6⟩ := h a b hb
    refine ⟨?_, h2, h3, h4, h5, h6⟩
    obtain ⟨sh, h7, h8⟩ := h1
    exact ⟨sh, h7, by cases sh <;> exact h8⟩
  · intro h a b hb
    obtain ⟨h1, h2, h3, h4, h5, h6⟩ := h a b hb
    refine ⟨?_, h2, h3, h4, h5, h6⟩
    obtain ⟨sh, h7, h8⟩ := h1
    exact ⟨sh, h7, by cases sh <;> exact h8⟩

/-- Making a copy in a larger model keeps it well-formed, and panics only as allowed. -/
theorem copy_wf {K : Par} [K.Rec] {src t : St} {c : Int} (ab : Above src t) (hs : Source src c) (h : c ≤ t.idCounter) (hc : c = src.idCounter)
    (hw : Wf K (cleared t)) (n : Nat) {a : Addr} (ha : IsBase src a) (hd : (copyR src c n a).1 ≠ .diverge) :
    Wf K (cleared ((behind t c h).embed (copyR src c n a).2)) ∧ (∀ e, (copyR src c n a).1 = .panic e → K.X e) ∧
      ∀ x, (copyR src c n a).1 = .ok x → IsBase (copyR src c n a).2 x := by
  have hat : IsBase (cleared t) a := Nat.lt_of_lt_of_le ha ab.bases.length_le
  obtain ⟨f1, f2, f3⟩ := copyOf_fine n hw hat
  rcases copyOf_source (t := cleared t) (above_cleared.2 ab) hs h hc n ha with ⟨h1, -⟩ | ⟨h1, -⟩
  · exact absurd h1 hd
  · rw [h1] at f1 f3
    refine ⟨wf_congr f1 rfl rfl rfl rfl rfl rfl rfl rfl rfl rfl, ?_, ?_⟩
    · intro e he
      unfold Outcome at f3
      simp only [he, out] at f3
      exact f3
    · intro x hx
      unfold Outcome at f3
      simp only [hx, out] at f3
      simp only [IsBase, Place.embed, Place.sb, List.length_append, List.length_map] at f3 ⊢
      unfold Addr at *; omega

/-- A region in a well-formed model is tight. -/
theorem tight_of_wf {K : Par} {e : Place} {r : St} (hw : Wf K (cleared (e.embed r))) : Tight r := by
  refine Tight.of_embed (e := e) (fun a b hb => ?_) hw.props hw.patProps hw.slices
  have := hw.base a b hb
  exact ⟨BaseIn.mono (s := cleared (e.embed r)) (s' := e.embed r) ⟨Nat.le_refl _, Nat.le_refl _, Nat.le_refl _, Nat.le_refl _, Nat.le_refl _, Nat.le_refl _, Nat.le_refl _, Nat.le_refl _⟩ this.ptrs, this.shape.imp fun _ h => h.1⟩

/-! ## What the copy is used for -/

theorem unwrapCopy_done {n : Nat} {a : Addr} {S : VSt} {b : Base} (hb : S.h.base a = some b) (hu : b.unwrapped = true) : unwrapCopy n a S = (.ok a, S) := by
  simp [unwrapCopy, M.bind, onSt, Heap.getBase, hb, hu, M.ret]

/-- `unwrapCopy` for a type that is not unwrapped. -/
theorem unwrapCopy_copy {n : Nat} {a : Addr} {S : VSt} {b : Base} (hw : WellFormed S.h) (hb : S.h.base a = some b) (hu : b.unwrapped = false) :
    unwrapCopy n a S = ((copyOf n a S.h).1, ⟨(copyOf n a S.h).2, match (copyOf n a S.h).1 with | .ok u => (b.id, u) :: S.cache | _ => S.cache⟩) := by
  have ha : IsBase S.h a := (List.getElem?_eq_some_iff.1 hb).1
  have e0 : unwrapCopy n a S = (M.bind (onSt (cloneDetached n a)) fun c => M.bind (onSt (unwrap n c)) fun us => M.bind (onSt (mark n us)) fun _ =>
      M.bind (onSt (Heap.getBase c)) fun c' => M.bind (M.modify fun s => { s with cache := (c'.id, us) :: s.cache }) fun _ => M.ret us) S := by
    simp [unwrapCopy, M.bind, onSt, Heap.getBase, hb, hu]
  rw [e0]
  rcases clone_outcome hw ha n with ⟨c, s1, h1⟩ | h1
  · obtain ⟨bc, hbc, hid⟩ := clone_id hw hb h1
    have e1 : copyOf n a S.h = prepare n c s1 := by unfold copyOf M.bind; rw [h1]
    rw [e1]
    unfold prepare M.bind
    simp only [onSt, h1]
    have k1 := ikeep_unwrap c n c s1 bc hbc
    cases hu1 : unwrap n c s1 with
    | mk o1 s2 =>
      rw [hu1] at k1
      cases o1 with
      | ok us =>
        obtain ⟨b2, hb2, hid2⟩ := k1
        simp only
        have k2 := ikeep_mark c n us s2 b2 hb2
        cases hm : mark n us s2 with
        | mk o2 s3 =>
          rw [hm] at k2
          cases o2 with
          | ok r =>
            obtain ⟨b3, hb3, hid3⟩ := k2
            simp only [Heap.getBase] at hb3 ⊢
            rw [hb3]
            simp only [M.modify, M.ret, hid3, hid2, hid]
          | _ => rfl
      | _ => rfl
  · have e1 : (copyOf n a S.h).1 = .diverge ∧ (copyOf n a S.h).2 = (cloneDetached n a S.h).2 := by
      unfold copyOf M.bind
      cases hc : cloneDetached n a S.h with
      | mk o s1 => rw [hc] at h1; simp only at h1; subst h1; exact ⟨rfl, rfl⟩
    rw [e1.1, e1.2]
    unfold M.bind
    simp only [onSt, h1]

end GoRaml.Emb
