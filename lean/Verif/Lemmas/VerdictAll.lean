import Verif.Lemmas.EmbedCopy
import Verif.Lemmas.Verdict
import Verif.Spec.Verdict

/-!
# The verdict of `ValidateShapes` on any model
-/

namespace GoRaml.Emb

open GoRaml GoRaml.Spec GoRaml.Load GoRaml.Whole

/-! ## Reading a region of a model -/

/-- `u` in `T` is the type `x` of the region `r`, placed somewhere. -/
def Sees (T : St) (u : Addr) (r : St) (x : Addr) : Prop := ∃ e : Place, u = e.sb x ∧ Above (e.embed r) T ∧ Tight r ∧ IsBase r x

theorem Sees.mono {T T' : St} {u x : Addr} {r : St} (h : Sees T u r x) (ab : Above T T') : Sees T' u r x := by
  obtain ⟨e, h1, h2, h3⟩ := h
  exact ⟨e, h1, h2.trans ab, h3⟩

theorem Sees.typeOK {E : Ext} {T : St} {u x : Addr} {r : St} (h : Sees T u r x) : TypeOK E T u ↔ TypeOK E r x := by
  obtain ⟨e, rfl, h2, h3, h4⟩ := h
  exact typeOK_iff h3 (.of_above h2) h4

theorem Sees.valid {E : Ext} {T : St} {u x : Addr} {r : St} (h : Sees T u r x) {v : GoVal} : Valid E T u v ↔ Valid E r x v := by
  obtain ⟨e, rfl, h2, h3, h4⟩ := h
  exact valid_iff h3 (.of_above h2) h4 v

theorem Sees.at (e : Place) {r : St} (ht : Tight r) {x : Addr} (hx : IsBase r x) : Sees (e.embed r) (e.sb x) r x := ⟨e, rfl, .refl _, ht, hx⟩

/-- A place with nothing in front. -/
def front (c : Int) : Place := ⟨{}, c, 0, by omega⟩

theorem optmap_id {α : Type} {f : α → α} (hf : ∀ x, f x = x) (o : Option α) : o.map f = o := by cases o <;> simp [hf]
theorem listmap_id {α : Type} {f : α → α} (hf : ∀ x, f x = x) (l : List α) : l.map f = l := by induction l <;> simp_all

section
variable (c : Int)
theorem front_sb (a : Addr) : (front c).sb a = a := Nat.zero_add a
theorem front_sp (a : Nat) : (front c).sp a = a := Nat.zero_add a
theorem front_sq (a : Nat) : (front c).sq a = a := Nat.zero_add a
theorem front_ss (a : Nat) : (front c).ss a = a := Nat.zero_add a
theorem front_sf (a : Nat) : (front c).sf a = a := Nat.zero_add a
theorem front_sd (a : Nat) : (front c).sd a = a := Nat.zero_add a
theorem front_num (i : Int) : (front c).num i = i := by simp [Place.num, front]
theorem front_shape (s : Shape) : (front c).shape s = s := by
  cases s <;> simp [Place.shape, Place.arr, Place.obj, optmap_id (front_sb c), optmap_id (front_sp c), optmap_id (front_sq c), optmap_id (front_ss c), front_sb c]
theorem front_base (b : Base) : (front c).base b = b := by
  simp [Place.base, optmap_id (front_shape c), optmap_id (front_ss c), optmap_id (front_sb c), optmap_id (front_sd c), optmap_id (front_sf c), optmap_id (front_sp c), front_num c]
theorem front_props (m : OMap Property) : (front c).props m = m := listmap_id (fun _ => by simp [Place.prop, front_sb]) m
theorem front_pats (m : OMap PatternProperty) : (front c).pats m = m := listmap_id (fun _ => by simp [Place.pat, front_sb]) m
theorem front_dt (d : DT) : (front c).dt d = d := by simp [Place.dt, optmap_id (front_sb c)]

theorem prefix_of_eq {α : Type} {l l' : List α} (h : l = l') : l <+: l' := h ▸ List.prefix_rfl

theorem front_above (s : St) : Above ((front c).embed s) s where
  bases := prefix_of_eq (listmap_id (front_base c) s.bases)
  pmaps := prefix_of_eq (listmap_id (front_props c) s.pmaps)
  ppmaps := prefix_of_eq (listmap_id (front_pats c) s.ppmaps)
  slices := prefix_of_eq (listmap_id (listmap_id (front_sb c)) s.slices)
  fmaps := List.prefix_rfl
  dts := prefix_of_eq (listmap_id (front_dt c) s.dts)
end

theorem Sees.self {s T : St} (ht : Tight s) (ab : Above s T) {a : Addr} (ha : IsBase s a) : Sees T a s a :=
  ⟨front 0, (front_sb 0 a).symm, (front_above 0 s).trans ab, ht, ha⟩

theorem Wf.tight {K : Par} {s : St} (hw : Wf K (cleared s)) : Tight s :=
  ⟨fun a b hb => ⟨BaseIn.mono (s := cleared s) (s' := s) ⟨Nat.le_refl _, Nat.le_refl _, Nat.le_refl _, Nat.le_refl _, Nat.le_refl _, Nat.le_refl _, Nat.le_refl _, Nat.le_refl _⟩
    (hw.base a b hb).ptrs, (hw.base a b hb).shape.imp fun _ h => h.1⟩, hw.props, hw.patProps, hw.slices⟩

/-! ## What a well-formed model offers to validation -/

section
variable {K : Par} [K.Rec] {s : St} (hw : Wf K (cleared s))
include hw

theorem Wf.props_in {p : Option Nat} : ∀ e ∈ s.props p, IsBase s e.2.base := by
  intro e he
  cases p with
  | none => simp [St.props] at he
  | some i =>
    simp only [St.props] at he
    cases hm : s.pmaps[i]? with
    | none => rw [hm] at he; simp at he
    | some m => rw [hm] at he; exact hw.props m (List.mem_of_getElem? hm) e he

theorem Wf.patProps_in {p : Option Nat} : ∀ e ∈ s.patProps p, IsBase s e.2.base := by
  intro e he
  cases p with
  | none => simp [St.patProps] at he
  | some i =>
    simp only [St.patProps] at he
    cases hm : s.ppmaps[i]? with
    | none => rw [hm] at he; simp at he
    | some m => rw [hm] at he; exact hw.patProps m (List.mem_of_getElem? hm) e he

theorem Wf.slice_in {p : Option Nat} : ∀ a ∈ s.slice p, IsBase s a := by
  intro e he
  cases p with
  | none => simp [St.slice] at he
  | some i =>
    simp only [St.slice] at he
    cases hm : s.slices[i]? with
    | none => rw [hm] at he; simp at he
    | some m => rw [hm] at he; exact hw.slices m (List.mem_of_getElem? hm) e he

theorem Wf.facets_in {p : Option Nat} : ∀ e ∈ s.facetMap p, K.V e.2 := by
  intro e he
  cases p with
  | none => simp [St.facetMap] at he
  | some i =>
    simp only [St.facetMap] at he
    cases hm : s.fmaps[i]? with
    | none => rw [hm] at he; simp at he
    | some m => rw [hm] at he; exact hw.fmaps m (List.mem_of_getElem? hm) e he

theorem Wf.closed : Closed s := by
  intro a b hb
  obtain ⟨sh, h1, h2⟩ := (hw.base a b hb).shape
  refine ⟨sh, h1, ?_⟩
  have h3 := (hw.base a b hb).ptrs.shape sh h1
  cases sh with
  | array f => exact h3
  | object f => exact ⟨(Wf.props_in hw), (Wf.patProps_in hw)⟩
  | union l e => exact (Wf.slice_in hw)
  | recursive x => exact h3
  | _ => trivial

theorem Wf.facetsClosed : FacetsClosed s := fun _ _ _ => (Wf.props_in hw)

theorem Wf.parentsClosed : ParentsClosed s := fun _ _ _ => (Wf.slice_in hw)

theorem Wf.discriminators (hV : ∀ v, K.V v → GoValue v) : RuntimeDiscriminators s := by
  intro a f hf
  obtain ⟨b, hb, hs⟩ : ∃ b, s.base a = some b ∧ b.shape = some (.object f) := by simpa [St.shapeAt, Option.bind_eq_some_iff] using hf
  obtain ⟨sh, h1, h2⟩ := (hw.base a b hb).shape
  rw [hs] at h1; cases h1
  exact hV _ h2

theorem Wf.values (hV : ∀ v, K.V v → GoValue v) : RuntimeValues s := by
  intro a b hb
  have := (hw.base a b hb).vals
  exact ⟨fun e he => hV _ (Wf.facets_in hw e he), fun ex h => hV _ (this.example ex h), fun exs m h1 h2 e he => hV _ (this.examples exs m h1 h2 e he), fun v h => hV _ (this.default v h)⟩

/-- The verdict on a type that is ready. -/
theorem Wf.verdict (E : Ext) (hV : ∀ v, K.V v → GoValue v) {ord : OMap Property → OMap Property} (ho : ∀ l, (ord l).Perm l) (n : Nat) {a : Addr} (ha : IsBase s a) :
    Right ((check E s n a).bind fun _ => validateCommons E s ord n a) (TypeOK E s a) :=
  type_right E (Wf.closed hw) (Wf.discriminators hw hV) (Wf.facetsClosed hw) (Wf.parentsClosed hw) (Wf.values hw hV) ho n ha

end

/-! ## The copy of a type -/

/-- The region and address of the copy of a type. -/
def CopyIs (s : St) (a : Addr) (r : St) (x : Addr) : Prop :=
  ∃ n, copyOf n a s = (.ok ((behind s s.idCounter (Int.le_refl _)).sb x), (behind s s.idCounter (Int.le_refl _)).embed r)

theorem copyOf_unique {n m : Nat} {a : Addr} {s : St} (hn : (copyOf n a s).1 ≠ .diverge) (hm : (copyOf m a s).1 ≠ .diverge) : copyOf n a s = copyOf m a s := by
  rw [← copyOf_at (Nat.le_max_left n m) a s hn, ← copyOf_at (Nat.le_max_right n m) a s hm]

theorem copyOf_run {n : Nat} {a u : Addr} {s s' : St} : copyOf n a s = (.ok u, s') ↔
    ∃ c s₁ s₂ r, cloneDetached n a s = (.ok c, s₁) ∧ unwrap n c s₁ = (.ok u, s₂) ∧ mark n u s₂ = (.ok r, s') := by
  unfold copyOf prepare
  constructor
  · intro h
    obtain ⟨c, s1, h1, h⟩ := M.bind_ok.1 h
    obtain ⟨u', s2, h2, h⟩ := M.bind_ok.1 h
    obtain ⟨r, s3, h3, h⟩ := M.bind_ok.1 h
    cases h
    exact ⟨c, s1, s2, r, h1, h2, h3⟩
  · rintro ⟨c, s1, s2, r, h1, h2, h3⟩
    exact M.bind_ok.2 ⟨c, s1, h1, M.bind_ok.2 ⟨u, s2, h2, M.bind_ok.2 ⟨r, s', h3, rfl⟩⟩⟩

/-- What a type that is not unwrapped is judged by. -/
theorem readied_copy {s s' : St} {a u : Addr} {b : Base} (hb : s.base a = some b) (hu : b.unwrapped = false) : Readied s a u s' ↔ ∃ n, copyOf n a s = (.ok u, s') := by
  constructor
  · rintro ⟨b', hb', ⟨h1, -⟩ | ⟨-, n, c, s1, s2, r, h⟩⟩
    · rw [hb] at hb'; cases hb'; rw [hu] at h1; cases h1
    · exact ⟨n, copyOf_run.2 ⟨c, s1, s2, r, h⟩⟩
  · rintro ⟨n, h⟩
    obtain ⟨c, s1, s2, r, h⟩ := copyOf_run.1 h
    exact ⟨b, hb, Or.inr ⟨hu, n, c, s1, s2, r, h⟩⟩

theorem readied_done {s s' : St} {a u : Addr} {b : Base} (hb : s.base a = some b) (hu : b.unwrapped = true) : Readied s a u s' ↔ u = a ∧ s' = s := by
  constructor
  · rintro ⟨b', hb', ⟨-, h⟩ | ⟨h1, -⟩⟩
    · exact h
    · rw [hb] at hb'; cases hb'; rw [hu] at h1; cases h1
  · rintro ⟨rfl, rfl⟩; exact ⟨b, hb, Or.inl ⟨hu, rfl, rfl⟩⟩

theorem typeFine_done {E : Ext} {s : St} {a : Addr} {b : Base} (hb : s.base a = some b) (hu : b.unwrapped = true) : TypeFine E s a ↔ TypeOK E s a := by
  unfold TypeFine
  constructor
  · rintro ⟨u, s', h1, h2⟩
    obtain ⟨rfl, rfl⟩ := (readied_done hb hu).1 h1
    exact h2
  · intro h; exact ⟨a, s, (readied_done hb hu).2 ⟨rfl, rfl⟩, h⟩

theorem valueFine_done {E : Ext} {s : St} {a : Addr} {v : GoVal} {b : Base} (hb : s.base a = some b) (hu : b.unwrapped = true) : ValueFine E s a v ↔ Valid E s a v := by
  unfold ValueFine
  constructor
  · rintro ⟨u, s', h1, h2⟩
    obtain ⟨rfl, rfl⟩ := (readied_done hb hu).1 h1
    exact h2
  · intro h; exact ⟨a, s, (readied_done hb hu).2 ⟨rfl, rfl⟩, h⟩

section
variable {s : St} {a : Addr} {b : Base} (hb : s.base a = some b) (hu : b.unwrapped = false) {r : St} {x : Addr} (hc : CopyIs s a r x) (ht : Tight r) (hx : IsBase r x)
include hb hu hc ht hx

theorem CopyIs.readied {u : Addr} {s' : St} : Readied s a u s' ↔ u = (behind s s.idCounter (Int.le_refl _)).sb x ∧ s' = (behind s s.idCounter (Int.le_refl _)).embed r := by
  obtain ⟨n, hn⟩ := hc
  rw [readied_copy hb hu]
  constructor
  · rintro ⟨m, hm⟩
    have := copyOf_unique (n := n) (m := m) (a := a) (s := s) (by rw [hn]; simp) (by rw [hm]; simp)
    rw [hn, hm] at this
    cases this
    exact ⟨rfl, rfl⟩
  · rintro ⟨rfl, rfl⟩; exact ⟨n, hn⟩

theorem CopyIs.typeFine {E : Ext} : TypeFine E s a ↔ TypeOK E r x := by
  have h0 := Sees.at (behind s s.idCounter (Int.le_refl _)) ht hx
  unfold TypeFine
  constructor
  · rintro ⟨u, s', h1, h2⟩
    obtain ⟨rfl, rfl⟩ := (CopyIs.readied hb hu hc ht hx).1 h1
    exact h0.typeOK.1 h2
  · intro h; exact ⟨_, _, (CopyIs.readied hb hu hc ht hx).2 ⟨rfl, rfl⟩, h0.typeOK.2 h⟩

theorem CopyIs.valueFine {E : Ext} {v : GoVal} : ValueFine E s a v ↔ Valid E r x v := by
  have h0 := Sees.at (behind s s.idCounter (Int.le_refl _)) ht hx
  unfold ValueFine
  constructor
  · rintro ⟨u, s', h1, h2⟩
    obtain ⟨rfl, rfl⟩ := (CopyIs.readied hb hu hc ht hx).1 h1
    exact h0.valid.1 h2
  · intro h; exact ⟨_, _, (CopyIs.readied hb hu hc ht hx).2 ⟨rfl, rfl⟩, h0.valid.2 h⟩

end

/-! ## Validation -/

/-- What validating a model `s` keeps true: the model is still there, with copies behind it, and the cache has copies of its types. -/
structure Inv (K : Par) (s : St) (S : VSt) : Prop where
  above : Above s S.h
  libs : S.h.libs = s.libs
  fragments : S.h.fragments = s.fragments
  exts : S.h.domainExts = s.domainExts
  wf : Wf K (cleared S.h)
  ids : s.idCounter ≤ S.h.idCounter
  cache : ∀ i us, memoGet S.cache i = some us → ∃ a b r x, s.base a = some b ∧ b.unwrapped = false ∧ b.id = i ∧ CopyIs s a r x ∧ Sees S.h us r x

/-- The model has a copy in the cache, if it needs one. -/
def Cached (s : St) (a : Addr) (S : VSt) : Prop := ∀ b, s.base a = some b → b.unwrapped = false → (memoGet S.cache b.id).isSome = true

def Grows (S S' : VSt) : Prop := ∀ i, (memoGet S.cache i).isSome = true → (memoGet S'.cache i).isSome = true

/-- The verdict of a step, and what it leaves behind. -/
def Judges (K : Par) (X : String → Prop) (s : St) (m : M VSt Unit) (P : Prop) (Q : VSt → Prop) : Prop :=
  ∀ S, Inv K s S →
    match m S with
    | (.ok _, S') => Inv K s S' ∧ Grows S S' ∧ P ∧ Q S'
    | (.err _, S') => Inv K s S' ∧ Grows S S' ∧ ¬ P
    | (.panic e, _) => X e
    | (.diverge, _) => True

/-- Something that stays true as the cache grows. -/
def Lasts (Q : VSt → Prop) : Prop := ∀ S S', Grows S S' → Q S → Q S'

theorem Cached.lasts (s : St) (a : Addr) : Lasts (Cached s a) := fun _ _ g h b hb hu => g _ (h b hb hu)

theorem Judges.congr {K : Par} {X : String → Prop} {s : St} {m : M VSt Unit} {P P' : Prop} {Q Q' : VSt → Prop} (h : Judges K X s m P Q) (hp : P ↔ P') (hq : ∀ S, Q S → Q' S) : Judges K X s m P' Q' := by
  intro S hS
  have := h S hS
  cases hm : m S with
  | mk o S' =>
    rw [hm] at this
    cases o with
    | ok x => exact ⟨this.1, this.2.1, hp.1 this.2.2.1, hq _ this.2.2.2⟩
    | err e => exact ⟨this.1, this.2.1, fun h => this.2.2 (hp.2 h)⟩
    | panic e => exact this
    | diverge => trivial

theorem Judges.tryEach {K : Par} {X : String → Prop} {s : St} {α : Type} {f : α → M VSt Unit} {P : α → Prop} {Q : α → VSt → Prop} (hq : ∀ x, Lasts (Q x)) :
    ∀ (l : List α), (∀ x ∈ l, Judges K X s (f x) (P x) (Q x)) → Judges K X s (M.tryEach f l) (∀ x ∈ l, P x) fun S => ∀ x ∈ l, Q x S
  | [], _ => fun S hS => ⟨hS, fun _ h => h, by simp, by simp⟩
  | x :: xs, h => by
    intro S hS
    have ih := Judges.tryEach hq xs fun y hy => h y (by simp [hy])
    have h1 := h x (by simp) S hS
    simp only [M.tryEach, M.bind, M.attempt]
    cases hm : f x S with
    | mk o S1 =>
      rw [hm] at h1
      cases o with
      | ok u =>
        obtain ⟨i1, g1, p1, q1⟩ := h1
        have h2 := ih S1 i1
        simp only
        cases hm2 : M.tryEach f xs S1 with
        | mk o2 S2 =>
          rw [hm2] at h2
          cases o2 with
          | ok u2 =>
            obtain ⟨i2, g2, p2, q2⟩ := h2
            refine ⟨i2, fun i hi => g2 i (g1 i hi), ?_, ?_⟩
            · intro y hy; rcases List.mem_cons.1 hy with rfl | hy
              · exact p1
              · exact p2 y hy
            · intro y hy; rcases List.mem_cons.1 hy with rfl | hy
              · exact hq _ _ _ g2 q1
              · exact q2 y hy
          | err e => exact ⟨h2.1, fun i hi => h2.2.1 i (g1 i hi), fun hp => h2.2.2 fun y hy => hp y (by simp [hy])⟩
          | panic e => exact h2
          | diverge => trivial
      | err e =>
        obtain ⟨i1, g1, p1⟩ := h1
        have h2 := ih S1 i1
        simp only
        cases hm2 : M.tryEach f xs S1 with
        | mk o2 S2 =>
          rw [hm2] at h2
          cases o2 with
          | ok u2 => exact ⟨h2.1, fun i hi => h2.2.1 i (g1 i hi), fun hp => p1 (hp x (by simp))⟩
          | err e => exact ⟨h2.1, fun i hi => h2.2.1 i (g1 i hi), fun hp => p1 (hp x (by simp))⟩
          | panic e => exact h2
          | diverge => trivial
      | panic e => exact h1
      | diverge => trivial

theorem Judges.tryBoth {K : Par} {X : String → Prop} {s : St} {m m' : M VSt Unit} {P P' : Prop} {Q Q' : VSt → Prop} (h : Judges K X s m P Q) (h' : Judges K X s m' P' Q') (hq : Lasts Q) (hq' : Lasts Q') :
    Judges K X s (M.tryBoth m m') (P ∧ P') fun S => Q S ∧ Q' S := by
  have := Judges.tryEach (K := K) (X := X) (s := s) (f := fun b : Bool => if b then m else m') (P := fun b => if b then P else P') (Q := fun b => if b then Q else Q')
    (by intro b; cases b <;> assumption) [true, false] (by intro b _; cases b <;> assumption)
  refine Judges.congr this (by simp [and_comm]) (by simp; tauto)

theorem behind_eq {s : St} {c : Int} (hc : c = s.idCounter) (h : c ≤ s.idCounter) : behind s c h = behind s s.idCounter (Int.le_refl _) := by subst hc; rfl

section
variable {K : Par} [K.Rec] {X : String → Prop} {s : St} {E : Ext} (hV : ∀ v, K.V v → GoValue v) {ord : OMap Property → OMap Property} (ho : ∀ l, (ord l).Perm l)

include hV ho in
/-- Judging a type that is ready. -/
theorem ready_judges {S : VSt} (hS : Inv K s S) (n : Nat) {u x : Addr} {r : St} (hsee : Sees S.h u r x) {o : Out Unit}
    (he : o = (check E S.h n u).bind fun _ => validateCommons E S.h ord n u) (hlt : IsBase S.h u) : Right o (TypeOK E r x) := by
  subst he
  exact (Wf.verdict hS.wf E hV ho n hlt).congr hsee.typeOK

theorem validateType_tail (n : Nat) (u : Addr) (S : VSt) :
    M.bind M.get (fun s => M.bind (M.lift (check E s.h n u)) fun _ => M.lift (validateCommons E s.h ord n u)) S =
    ((check E S.h n u).bind fun _ => validateCommons E S.h ord n u, S) := by
  simp only [M.bind, M.get, M.lift]
  cases check E S.h n u <;> rfl

theorem Sees.isBase {T : St} {u x : Addr} {r : St} (h : Sees T u r x) : IsBase T u := by
  obtain ⟨e, rfl, h2, h3, h4⟩ := h
  have := h2.bases.length_le
  simp only [IsBase, Place.embed, Place.sb, List.length_append, List.length_map] at *
  unfold Addr at *; omega

include hV ho in
theorem validateType_judges (hw : Wf K (cleared s)) (n : Nat) {a : Addr} {b : Base} (hb : s.base a = some b) (hs : b.unwrapped = false → Source s s.idCounter ∧ ∀ e, K.X e → X e) :
    Judges K X s (validateType E ord n a) (TypeFine E s a) (Cached s a) := by
  intro S hS
  have ha : IsBase s a := (List.getElem?_eq_some_iff.1 hb).1
  have hbS : S.h.base a = some b := hS.above.base hb
  cases hu : b.unwrapped with
  | true =>
    have hsee := Sees.self (Wf.tight hw) hS.above ha
    unfold validateType
    simp only [M.bind, unwrapCopy_done hbS hu]
    have e1 := validateType_tail (E := E) (ord := ord) n a S
    simp only [M.bind] at e1
    rw [e1]
    have h1 := (ready_judges (E := E) hV ho hS n hsee rfl hsee.isBase).congr (typeFine_done hb hu).symm
    cases ho1 : (check E S.h n a).bind fun _ => validateCommons E S.h ord n a with
    | ok _ => exact ⟨hS, fun _ h => h, h1.ok ho1, fun b' hb' hu' => by rw [hb] at hb'; cases hb'; rw [hu] at hu'; cases hu'⟩
    | err e => exact ⟨hS, fun _ h => h, h1.err e ho1⟩
    | panic e => exact absurd ho1 (h1.calm e)
    | diverge => trivial
  | false =>
    obtain ⟨hsrc, hX⟩ := hs hu
    have hwf : WellFormed S.h := wellFormed_cleared.1 hS.wf.wellFormed
    unfold validateType
    simp only [M.bind]
    rw [unwrapCopy_copy hwf hbS hu]
    rcases copyOf_source hS.above hsrc hS.ids rfl n ha with ⟨-, h1⟩ | ⟨h1, h2⟩
    · rw [h1]; trivial
    rcases copyOf_source (Above.refl s) hsrc (Int.le_refl _) rfl n ha with ⟨h3, -⟩ | ⟨h3, -⟩
    · rw [h1, h3]; trivial
    have hR : ∃ q, copyR s s.idCounter n a = q := ⟨_, rfl⟩
    obtain ⟨⟨oR, r⟩, hR⟩ := hR
    by_cases hdiv : oR = .diverge
    · rw [h1, hR, hdiv]; trivial
    have hwf' := copy_wf hS.above hsrc hS.ids rfl hS.wf n ha (by rw [hR]; exact hdiv)
    rw [hR] at h1 h2 h3 hwf'
    simp only at h1 h2 h3 hwf'
    rw [h1]
    have ab : Above S.h ((behind S.h s.idCounter hS.ids).embed r) := Above.embed (behind S.h s.idCounter hS.ids) r
    have mkInv : ∀ cache, (∀ i us, memoGet cache i = some us → ∃ a b r' x, s.base a = some b ∧ b.unwrapped = false ∧ b.id = i ∧ CopyIs s a r' x ∧
        Sees ((behind S.h s.idCounter hS.ids).embed r) us r' x) → Inv K s ⟨(behind S.h s.idCounter hS.ids).embed r, cache⟩ := by
      intro cache hcache
      refine ⟨hS.above.trans ab, hS.libs, hS.fragments, hS.exts, hwf'.1, ?_, hcache⟩
      have := hS.ids
      simp only [Place.embed, behind]
      omega
    have old : ∀ i us, memoGet S.cache i = some us → ∃ a b r' x, s.base a = some b ∧ b.unwrapped = false ∧ b.id = i ∧ CopyIs s a r' x ∧
        Sees ((behind S.h s.idCounter hS.ids).embed r) us r' x := by
      intro i us hm
      obtain ⟨a', b', r', x', h4, h5, h6, h7, h8⟩ := hS.cache i us hm
      exact ⟨a', b', r', x', h4, h5, h6, h7, h8.mono ab⟩
    cases oR with
    | diverge => exact absurd rfl hdiv
    | panic e => exact hX e (hwf'.2.1 e rfl)
    | err e =>
      refine ⟨mkInv _ old, fun _ h => h, ?_⟩
      rintro ⟨u, s', h4, -⟩
      obtain ⟨m, h4⟩ := (readied_copy hb hu).1 h4
      have := copyOf_unique (n := n) (m := m) (a := a) (s := s) (by rw [h3]; simp [out]) (by rw [h4]; simp)
      rw [h3, h4] at this
      cases this
    | ok x =>
      have ht := tight_of_wf hwf'.1
      have hx := hwf'.2.2 x rfl
      have hcopy : CopyIs s a r x := ⟨n, h3⟩
      have hsee := Sees.at (behind S.h s.idCounter hS.ids) ht hx
      have hI : Inv K s ⟨(behind S.h s.idCounter hS.ids).embed r, (b.id, (behind S.h s.idCounter hS.ids).sb x) :: S.cache⟩ := by
        refine mkInv _ fun i us hm => ?_
        rw [memoGet_cons] at hm
        by_cases hi : b.id = i
        · rw [if_pos hi] at hm
          cases hm
          exact ⟨a, b, r, x, hb, hu, hi, hcopy, hsee⟩
        · rw [if_neg hi] at hm
          exact old i us hm
      have hg : Grows S ⟨(behind S.h s.idCounter hS.ids).embed r, (b.id, (behind S.h s.idCounter hS.ids).sb x) :: S.cache⟩ := by
        intro i hi
        show (memoGet (_ :: _) _).isSome = true
        rw [memoGet_cons]
        split
        · rfl
        · exact hi
      simp only [out]
      have e1 := validateType_tail (E := E) (ord := ord) n ((behind S.h s.idCounter hS.ids).sb x) ⟨(behind S.h s.idCounter hS.ids).embed r, (b.id, (behind S.h s.idCounter hS.ids).sb x) :: S.cache⟩
      simp only [M.bind] at e1
      rw [e1]
      have h1 := (ready_judges (E := E) hV ho hI n hsee rfl hsee.isBase).congr (CopyIs.typeFine hb hu hcopy ht hx).symm
      simp only at h1
      cases ho1 : (check E ((behind S.h s.idCounter hS.ids).embed r) n ((behind S.h s.idCounter hS.ids).sb x)).bind
          fun _ => validateCommons E ((behind S.h s.idCounter hS.ids).embed r) ord n ((behind S.h s.idCounter hS.ids).sb x) with
      | ok _ =>
        refine ⟨hI, hg, h1.ok ho1, fun b' hb' hu' => ?_⟩
        rw [hb] at hb'; cases hb'
        show (memoGet (_ :: _) _).isSome = true
        rw [memoGet_cons, if_pos rfl]; rfl
      | err e => exact ⟨hI, hg, h1.err e ho1⟩
      | panic e => exact absurd ho1 (h1.calm e)
      | diverge => trivial

end

/-- What a fragment declares is right. -/
def FragFine (E : Ext) (s : St) : FragRef → Prop
  | .library i => ∀ l, s.libs[i]? = some l → (∀ e ∈ l.annotationTypes, TypeFine E s e.2) ∧ ∀ e ∈ l.types, TypeFine E s e.2
  | .dataType i => ∀ d a, s.dts[i]? = some d → d.shape = some a → TypeFine E s a
  | .namedExample _ => True

/-- What a fragment declares is cached. -/
def FragCached (s : St) (S : VSt) : FragRef → Prop
  | .library i => ∀ l, s.libs[i]? = some l → (∀ e ∈ l.annotationTypes, Cached s e.2 S) ∧ ∀ e ∈ l.types, Cached s e.2 S
  | .dataType i => ∀ d a, s.dts[i]? = some d → d.shape = some a → Cached s a S
  | .namedExample _ => True

theorem FragCached.lasts (s : St) (f : FragRef) : Lasts fun S => FragCached s S f := by
  intro S S' g h
  cases f with
  | library i => exact fun l hl => ⟨fun e he => Cached.lasts s _ _ _ g ((h l hl).1 e he), fun e he => Cached.lasts s _ _ _ g ((h l hl).2 e he)⟩
  | dataType i => exact fun d a hd ha => Cached.lasts s _ _ _ g (h d a hd ha)
  | namedExample i => trivial

/-- A model that validation can be run on. -/
structure Sane (K : Par) (X : String → Prop) (s : St) : Prop where
  wf : Wf K (cleared s)
  /-- Every fragment exists, and a data type has a type. -/
  libs : ∀ k i, (k, FragRef.library i) ∈ s.fragments → ∃ l, s.libs[i]? = some l
  dts : ∀ k i, (k, FragRef.dataType i) ∈ s.fragments → ∃ d, s.dts[i]? = some d
  /-- If there is a type to copy, there are no recursive shapes, and IDs are in use up to the counter. -/
  source : ∀ a b, DeclaredType s a → s.base a = some b → b.unwrapped = false → Source s s.idCounter ∧ ∀ e, K.X e → X e
  ids : ∀ a b a' b', DeclaredType s a → s.base a = some b → b.unwrapped = false → s.base a' = some b' → b.id = b'.id → a = a'
  /-- Every annotation has a type that is unwrapped or declared. -/
  exts : ∀ d ∈ s.domainExts, ∃ a b, d.definedBy = some a ∧ s.base a = some b ∧ (b.unwrapped = true ∨ DeclaredType s a)
  values : ∀ d ∈ s.domainExts, GoValue d.value

theorem Sane.declared {K : Par} {X : String → Prop} {s : St} (h : Sane K X s) {a : Addr} (ha : DeclaredType s a) : ∃ b, s.base a = some b := by
  have key : IsBase s a := by
    cases ha with
    | type hk hl he => exact (h.wf.lib _ (List.mem_of_getElem? hl)).types _ he
    | annotationType hk hl he => exact (h.wf.lib _ (List.mem_of_getElem? hl)).annotationTypes _ he
    | dataType hk hd hs =>
      obtain ⟨a', h1, h2⟩ := (h.wf.dt _ (List.mem_of_getElem? hd)).shape
      rw [hs] at h1; cases h1
      exact h2
  exact Load.isBase_base key

section
variable {K : Par} [K.Rec] {X : String → Prop} {s : St} {E : Ext} (hs : Sane K X s) (hV : ∀ v, K.V v → GoValue v) {ord : OMap Property → OMap Property} (ho : ∀ l, (ord l).Perm l)
include hs hV ho

theorem declared_judges (n : Nat) {a : Addr} (ha : DeclaredType s a) : Judges K X s (validateType E ord n a) (TypeFine E s a) (Cached s a) := by
  obtain ⟨b, hb⟩ := hs.declared ha
  exact validateType_judges hV ho hs.wf n hb fun hu => hs.source a b ha hb hu

theorem validateFragment_judges (n : Nat) {k : String} {f : FragRef} (hf : (k, f) ∈ s.fragments) :
    Judges K X s (validateFragment E ord n f) (FragFine E s f) fun S => FragCached s S f := by
  cases f with
  | namedExample i => exact fun S hS => ⟨hS, fun _ h => h, trivial, trivial⟩
  | library i =>
    obtain ⟨l, hl⟩ := hs.libs k i hf
    have h1 := Judges.tryEach (K := K) (X := X) (s := s) (f := fun ka : String × Addr => validateType E ord n ka.2) (P := fun e => TypeFine E s e.2) (Q := fun e => Cached s e.2)
      (fun _ => Cached.lasts s _) l.annotationTypes fun e he => declared_judges hs hV ho n (.annotationType hf hl he)
    have h2 := Judges.tryEach (K := K) (X := X) (s := s) (f := fun ka : String × Addr => validateType E ord n ka.2) (P := fun e => TypeFine E s e.2) (Q := fun e => Cached s e.2)
      (fun _ => Cached.lasts s _) l.types fun e he => declared_judges hs hV ho n (.type hf hl he)
    have h3 := (Judges.tryBoth h1 h2 (fun S S' g h e he => Cached.lasts s _ _ _ g (h e he)) fun S S' g h e he => Cached.lasts s _ _ _ g (h e he)).congr
      (P' := FragFine E s (.library i)) (Q' := fun S => FragCached s S (.library i))
      ⟨fun h l' hl' => by rw [hl] at hl'; cases hl'; exact h, fun h => h l hl⟩ (fun S h l' hl' => by rw [hl] at hl'; cases hl'; exact h)
    intro S hS
    have e1 : validateFragment E ord n (.library i) S = validateLibrary E ord n l S := by simp only [validateFragment, hS.libs, hl]
    rw [e1]
    exact h3 S hS
  | dataType i =>
    obtain ⟨d, hd⟩ := hs.dts k i hf
    obtain ⟨a, ha, -⟩ := (hs.wf.dt _ (List.mem_of_getElem? hd)).shape
    have h3 := (declared_judges (E := E) hs hV ho n (.dataType hf hd ha)).congr (P' := FragFine E s (.dataType i)) (Q' := fun S => FragCached s S (.dataType i))
      ⟨fun h d' a' hd' ha' => by rw [hd] at hd'; cases hd'; rw [ha] at ha'; cases ha'; exact h, fun h => h d a hd ha⟩
      (fun S h d' a' hd' ha' => by rw [hd] at hd'; cases hd'; rw [ha] at ha'; cases ha'; exact h)
    intro S hS
    have e1 : validateFragment E ord n (.dataType i) S = validateType E ord n a S := by
      simp only [validateFragment, getElem?_of_prefix hS.above.dts hd, Option.bind_some, ha]
    rw [e1]
    exact h3 S hS

/-- The cache has all types that need a copy. -/
def AllCached (s : St) (S : VSt) : Prop := ∀ a, DeclaredType s a → Cached s a S

theorem validateFragments_judges (n : Nat) {frags : List FragRef} (hf : frags.Perm (s.fragments.map (·.2))) :
    Judges K X s (validateFragments E ord n frags) (∀ a, DeclaredType s a → TypeFine E s a) (AllCached s) := by
  have hm : ∀ {k f}, (k, f) ∈ s.fragments → f ∈ frags := fun h => hf.mem_iff.2 (List.mem_map.2 ⟨_, h, rfl⟩)
  refine (Judges.tryEach (K := K) (X := X) (s := s) (P := FragFine E s) (Q := fun f S => FragCached s S f) (fun f => FragCached.lasts s f) frags fun f hfm => ?_).congr ⟨?_, ?_⟩ ?_
  · obtain ⟨⟨k, f'⟩, he, rfl⟩ := List.mem_map.1 (hf.mem_iff.1 hfm)
    exact validateFragment_judges hs hV ho n he
  · intro h a ha
    cases ha with
    | type hk hl he => exact (h _ (hm hk) _ hl).2 _ he
    | annotationType hk hl he => exact (h _ (hm hk) _ hl).1 _ he
    | dataType hk hd hsh => exact h _ (hm hk) _ _ hd hsh
  · intro h f hfm
    obtain ⟨⟨k, f'⟩, he, rfl⟩ := List.mem_map.1 (hf.mem_iff.1 hfm)
    cases f' with
    | library i => exact fun l hl => ⟨fun e hem => h _ (.annotationType he hl hem), fun e hem => h _ (.type he hl hem)⟩
    | dataType i => exact fun d a hd ha => h _ (.dataType he hd ha)
    | namedExample i => trivial
  · intro S h a ha
    cases ha with
    | type hk hl he => exact (h _ (hm hk) _ hl).2 _ he
    | annotationType hk hl he => exact (h _ (hm hk) _ hl).1 _ he
    | dataType hk hd hsh => exact h _ (hm hk) _ _ hd hsh

end

/-! ## Annotations -/

section
variable {K : Par} [K.Rec] {X : String → Prop} {s : St} {E : Ext} (hs : Sane K X s)
include hs

omit hs in
theorem validateDomainExtension_state (n : Nat) (d : DomainExt) (S : VSt) : (validateDomainExtension E n d S).2 = S := by
  unfold validateDomainExtension
  split
  · split
    · rfl
    · split <;> rfl
  · rfl

/-- With everything cached the verdict on an annotation is right, and without it there is no panic. -/
theorem validateDomainExtension_right (n : Nat) {S : VSt} (hS : Inv K s S) {d : DomainExt} (hd : d ∈ s.domainExts) :
    (∀ e, (validateDomainExtension E n d S).1 ≠ .panic e) ∧
    (AllCached s S → Right (validateDomainExtension E n d S).1 (∃ a, d.definedBy = some a ∧ ValueFine E s a d.value)) := by
  obtain ⟨a, b, h1, hb, h2⟩ := hs.exts d hd
  have hbS := hS.above.base hb
  have ha : IsBase s a := (List.getElem?_eq_some_iff.1 hb).1
  have hv := hs.values d hd
  have hP : (∃ a, d.definedBy = some a ∧ ValueFine E s a d.value) ↔ ValueFine E s a d.value :=
    ⟨fun ⟨a', h3, h4⟩ => by rw [h1] at h3; cases h3; exact h4, fun h => ⟨a, h1, h⟩⟩
  cases hu : b.unwrapped with
  | true =>
    have e1 : validateDomainExtension E n d S = (validate E S.h n a d.value, S) := by
      simp only [validateDomainExtension, h1, Option.bind_some, hbS, hu, if_true]
    have hsee := Sees.self (Wf.tight hs.wf) hS.above ha
    have := (validate_right E (Wf.closed hS.wf) n hsee.isBase hv)
    rw [e1]
    refine ⟨this.calm, fun _ => this.congr ?_⟩
    rw [hP, valueFine_done hb hu]
    exact hsee.valid
  | false =>
    cases hm : memoGet S.cache b.id with
    | none =>
      have e1 : validateDomainExtension E n d S = (.err "unwrapped shape not found", S) := by
        simp only [validateDomainExtension, h1, Option.bind_some, hbS, hu, hm, Bool.false_eq_true, if_false]
      rw [e1]
      refine ⟨by simp, fun hc => ?_⟩
      have := hc a (h2.resolve_left (by rw [hu]; simp)) b hb hu
      rw [hm] at this; cases this
    | some us =>
      have e1 : validateDomainExtension E n d S = (validate E S.h n us d.value, S) := by
        simp only [validateDomainExtension, h1, Option.bind_some, hbS, hu, hm, Bool.false_eq_true, if_false]
      obtain ⟨a', b', r, x, hb', hu', hid, hcopy, hsee⟩ := hS.cache _ _ hm
      have : a' = a := (hs.ids _ _ _ _ (h2.resolve_left (by rw [hu]; simp)) hb hu hb' hid.symm).symm
      subst this
      have hr := (validate_right E (Wf.closed hS.wf) n hsee.isBase hv)
      rw [e1]
      refine ⟨hr.calm, fun _ => hr.congr ?_⟩
      rw [hP, CopyIs.valueFine hb hu hcopy (by obtain ⟨_, _, _, h, _⟩ := hsee; exact h) (by obtain ⟨_, _, _, _, h⟩ := hsee; exact h)]
      exact hsee.valid

omit hs in
theorem tryEach_still {α : Type} {f : α → M VSt Unit} {S : VSt} : ∀ (l : List α), (∀ x ∈ l, (f x S).2 = S) → (M.tryEach f l S).2 = S ∧
    (∀ e, (M.tryEach f l S).1 = .panic e → ∃ x ∈ l, ∃ e, (f x S).1 = .panic e) ∧
    ∀ (P : α → Prop), (∀ x ∈ l, Right (f x S).1 (P x)) → Right (M.tryEach f l S).1 (∀ x ∈ l, P x)
  | [], _ => ⟨rfl, ⟨fun _ h => (by cases h), fun _ _ => Right.nil.congr (by simp)⟩⟩
  | x :: xs, h => by
    obtain ⟨i1, i2, i3⟩ := tryEach_still xs fun y hy => h y (by simp [hy])
    have hx := h x (by simp)
    cases h1 : f x S with
    | mk o1 S1 =>
      rw [h1] at hx
      simp only at hx
      subst hx
      cases h2 : M.tryEach f xs S1 with
      | mk o2 S2 =>
        rw [h2] at i1 i2 i3
        simp only at i1
        subst i1
        have key : M.tryEach f (x :: xs) S2 = (match o1, o2 with
            | .ok _, .ok _ => (.ok (), S2)
            | .ok _, .err e => (.err e, S2)
            | .ok _, .panic e => (.panic e, S2)
            | .ok _, .diverge => (.diverge, S2)
            | .err e, .ok _ => (.err e, S2)
            | .err e, .err _ => (.err e, S2)
            | .err _, .panic e => (.panic e, S2)
            | .err _, .diverge => (.diverge, S2)
            | .panic e, _ => (.panic e, S2)
            | .diverge, _ => (.diverge, S2)) := by
          cases o1 <;> cases o2 <;> simp [M.tryEach, M.bind, M.attempt, h1, h2, M.ret, M.err]
        rw [key]
        refine ⟨by cases o1 <;> cases o2 <;> rfl, ?_, ?_⟩
        · intro e he
          cases o1 with
          | panic e' => exact ⟨x, by simp, e', by rw [h1]⟩
          | diverge => cases he
          | ok u =>
            cases o2 with
            | panic e' => obtain ⟨y, hy, hp⟩ := i2 e' rfl; exact ⟨y, by simp [hy], hp⟩
            | _ => cases he
          | err u =>
            cases o2 with
            | panic e' => obtain ⟨y, hy, hp⟩ := i2 e' rfl; exact ⟨y, by simp [hy], hp⟩
            | _ => cases he
        · intro P hP
          have p1 := hP x (by simp)
          have p2 := i3 P fun y hy => hP y (by simp [hy])
          rw [h1] at p1
          simp only at p1 p2
          cases o1 with
          | panic e => exact absurd rfl (p1.calm e)
          | diverge => exact Right.diverge
          | ok u =>
            cases o2 with
            | panic e => exact absurd rfl (p2.calm e)
            | diverge => exact Right.diverge
            | ok u2 => exact ⟨fun _ y hy => by
                rcases List.mem_cons.1 hy with rfl | hy
                · exact p1.ok rfl
                · exact p2.ok rfl y hy, by simp, by simp⟩
            | err e => exact Right.fail fun hp => p2.err e rfl fun y hy => hp y (by simp [hy])
          | err e =>
            cases o2 with
            | panic e => exact absurd rfl (p2.calm e)
            | diverge => exact Right.diverge
            | ok u2 => exact Right.fail fun hp => p1.err e rfl (hp x (by simp))
            | err e' => exact Right.fail fun hp => p1.err e rfl (hp x (by simp))

end

/-- The verdict of a call of `ValidateShapes`: `P` if there is no error, not `P` if there is one; the model is still there. -/
def Verdict (K : Par) (X : String → Prop) (s : St) (P : Prop) : Out Unit × St → Prop
  | (.ok _, t) => P ∧ Inv K s ⟨t, []⟩
  | (.err _, t) => ¬ P ∧ Inv K s ⟨t, []⟩
  | (.panic e, _) => X e
  | (.diverge, _) => True

theorem validateShapes_verdict {K : Par} [K.Rec] {X : String → Prop} {s t : St} {E : Ext} (hs : Sane K X s) (hV : ∀ v, K.V v → GoValue v) {ord : OMap Property → OMap Property} (ho : ∀ l, (ord l).Perm l)
    (n : Nat) {frags : List FragRef} (hf : frags.Perm (s.fragments.map (·.2))) (ht : Inv K s ⟨t, []⟩) :
    Verdict K X s (ModelFine E s) (validateShapes E ord frags n t) := by
  have h1 := validateFragments_judges (E := E) hs hV ho n hf ⟨t, []⟩ ht
  unfold validateShapes M.tryBoth
  simp only [M.tryEach, M.bind, M.attempt, id]
  have forget : ∀ {S : VSt}, Inv K s S → Inv K s ⟨S.h, []⟩ := fun h => ⟨h.above, h.libs, h.fragments, h.exts, h.wf, h.ids, fun i us hm => by cases hm⟩
  cases hm : validateFragments E ord n frags ⟨t, []⟩ with
  | mk o S =>
    rw [hm] at h1
    cases o with
    | panic e => exact h1
    | diverge => trivial
    | ok u =>
      obtain ⟨hI, -, hp, hc⟩ := h1
      obtain ⟨e1, -, e3⟩ := tryEach_still (f := validateDomainExtension E n) (S := S) s.domainExts fun d _ => validateDomainExtension_state n d S
      have e3 := e3 (fun d => ∃ a, d.definedBy = some a ∧ ValueFine E s a d.value) fun d hd => (validateDomainExtension_right hs n hI hd).2 hc
      simp only [validateDomainExtensions, hI.exts]
      cases hm2 : M.tryEach (validateDomainExtension E n) s.domainExts S with
      | mk o2 S2 =>
        rw [hm2] at e1 e3
        simp only at e1 e3
        subst e1
        cases o2 with
        | ok u => exact ⟨⟨hp, e3.ok rfl⟩, forget hI⟩
        | err e => exact ⟨fun h => e3.err e rfl h.2, forget hI⟩
        | panic e => exact absurd rfl (e3.calm e)
        | diverge => trivial
    | err e0 =>
      obtain ⟨hI, -, hp⟩ := h1
      obtain ⟨e1, e2, -⟩ := tryEach_still (f := validateDomainExtension E n) (S := S) s.domainExts fun d _ => validateDomainExtension_state n d S
      simp only [validateDomainExtensions, hI.exts]
      cases hm2 : M.tryEach (validateDomainExtension E n) s.domainExts S with
      | mk o2 S2 =>
        rw [hm2] at e1 e2
        simp only at e1 e2
        subst e1
        cases o2 with
        | ok u => exact ⟨fun h => hp h.1, forget hI⟩
        | err e => exact ⟨fun h => hp h.1, forget hI⟩
        | panic e =>
          obtain ⟨d, hd, e', he⟩ := e2 e rfl
          exact absurd he ((validateDomainExtension_right hs n hI hd).1 e')
        | diverge => trivial

/-- A model whose declared types are all unwrapped is left as it is. -/
theorem validateShapes_still {s : St} {E : Ext} {ord : OMap Property → OMap Property} (n : Nat) {frags : List FragRef} (hf : ∀ f ∈ frags, ∃ k, (k, f) ∈ s.fragments)
    (hu : ∀ a, DeclaredType s a → ∃ b, s.base a = some b ∧ b.unwrapped = true) : (validateShapes E ord frags n s).2 = s := by
  have hty : ∀ a, DeclaredType s a → (validateType E ord n a ⟨s, []⟩).2 = ⟨s, []⟩ := by
    intro a ha
    obtain ⟨b, hb, hu⟩ := hu a ha
    unfold validateType
    have e1 := validateType_tail (E := E) (ord := ord) n a ⟨s, []⟩
    simp only [M.bind] at e1 ⊢
    rw [unwrapCopy_done hb hu]
    simp only [e1]
  have hfr : ∀ f ∈ frags, (validateFragment E ord n f ⟨s, []⟩).2 = ⟨s, []⟩ := by
    intro f hfm
    obtain ⟨k, hk⟩ := hf f hfm
    cases f with
    | namedExample i => rfl
    | dataType i =>
      simp only [validateFragment]
      cases hd : (s.dts[i]?).bind (·.shape) with
      | none => rfl
      | some a =>
        cases hd' : s.dts[i]? with
        | none => rw [hd'] at hd; cases hd
        | some d => rw [hd'] at hd; exact hty a (.dataType hk hd' hd)
    | library i =>
      simp only [validateFragment]
      cases hl : s.libs[i]? with
      | none => rfl
      | some l =>
        have h1 : ((validateTypes E ord n l.annotationTypes) ⟨s, []⟩).2 = ⟨s, []⟩ := (tryEach_still (f := fun ka : String × Addr => validateType E ord n ka.2) l.annotationTypes
          fun e he => hty _ (.annotationType hk hl he)).1
        have h2 : ((validateTypes E ord n l.types) ⟨s, []⟩).2 = ⟨s, []⟩ := (tryEach_still (f := fun ka : String × Addr => validateType E ord n ka.2) l.types
          fun e he => hty _ (.type hk hl he)).1
        exact (tryEach_still (f := id) [validateTypes E ord n l.annotationTypes, validateTypes E ord n l.types] (by
          intro m hm
          rcases List.mem_cons.1 hm with rfl | hm
          · exact h1
          · rw [List.mem_singleton.1 hm]; exact h2)).1
  have h1 : (validateFragments E ord n frags ⟨s, []⟩).2 = ⟨s, []⟩ := (tryEach_still frags hfr).1
  have h2 : (validateDomainExtensions E n ⟨s, []⟩).2 = ⟨s, []⟩ := (tryEach_still (f := validateDomainExtension E n) s.domainExts fun d _ => validateDomainExtension_state n d _).1
  have := (tryEach_still (f := id) (S := ⟨s, []⟩) [validateFragments E ord n frags, validateDomainExtensions E n] (by
    intro m hm
    rcases List.mem_cons.1 hm with rfl | hm
    · exact h1
    · rw [List.mem_singleton.1 hm]; exact h2)).1
  exact congrArg VSt.h this

theorem kind_not_recursive {t : String} {x : Addr} (h : Kind (.recursive x) = Kind (emptyShape t)) : False := by
  have key : ∀ (c : Prop) [Decidable c] (p q : Shape), Kind (.recursive x) ≠ Kind p → Kind (.recursive x) ≠ Kind q → Kind (.recursive x) ≠ Kind (if c then p else q) := by
    intro c _ p q h1 h2
    split
    · exact h1
    · exact h2
  refine absurd h ?_
  unfold emptyShape
  repeat' refine key _ _ _ (by simp [Kind]) ?_
  simp [Kind]

theorem Wf.cleared {K : Par} {s : St} (hw : Wf K s) : Wf K (cleared s) := (hw.tables (ft := []) (fa := []) (sh := []) fun _ h => by cases h).1

end GoRaml.Emb
