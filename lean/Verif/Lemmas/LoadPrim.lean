import Verif.Lemmas.LoadInv
import Verif.Lemmas.Commons

/-!
# Loading: runs that keep the invariant, and the primitive operations
-/

namespace GoRaml.Load

open GoRaml GoRaml.Spec

/-- A further invariant of the loader, and whether running out of fuel is accepted. -/
structure Ctl where
  X : St → Prop
  div : Prop
  closed : ∀ T s s', X s → G True (Perm.top T) s s' → s'.libs.length = s.libs.length → s'.dts.length = s.dts.length → X s'

/-- What a run of `m` from `s` ensures. -/
def Run {α : Type} (E : Env) (K : Ctl) (r : Prop) (P π : Perm) (m : M St α) (s : St) (Q : α → St → Prop) : Prop :=
  match m s with
  | (.ok x, s') => W E P s' ∧ K.X s' ∧ G r π s s' ∧ Q x s'
  | (.err _, s') => W E (Perm.top π.f) s' ∧ K.X s' ∧ G r (Perm.top π.f) s s'
  | (.panic _, _) => True
  | (.diverge, _) => K.div

/-- `π` allows no more than `π'`, on what exists in `s`. -/
structure Perm.Le (s : St) (π π' : Perm) : Prop where
  b : ∀ a, IsBase s a → π.b a → π'.b a
  l : ∀ i, i < s.libs.length → π.l i → π'.l i
  d : ∀ i, i < s.dts.length → π.d i → π'.d i
  f : ∀ p, π.f p → π'.f p

theorem Perm.Le.refl (s : St) (π : Perm) : Perm.Le s π π := ⟨fun _ _ h => h, fun _ _ h => h, fun _ _ h => h, fun _ h => h⟩

theorem Perm.Le.grow {r : Prop} {π0 π π' : Perm} {s s' : St} (h : ∀ a, π.b a → π'.b a) (hl : ∀ a, π.l a → π'.l a) (hd : ∀ a, π.d a → π'.d a) (hf : ∀ a, π.f a → π'.f a) :
    Perm.Le s π π' := ⟨fun a _ => h a, fun a _ => hl a, fun a _ => hd a, hf⟩

theorem Perm.Le.addB {s : St} {π : Perm} {a : Addr} (h : s.bases.length ≤ a) : Perm.Le s (π.addB a) π :=
  ⟨fun x hx hp => hp.elim id fun e => absurd hx (by subst e; exact Nat.not_lt.2 h), fun _ _ h => h, fun _ _ h => h, fun _ h => h⟩

theorem Perm.Le.addL {s : St} {π : Perm} {a : Nat} (h : s.libs.length ≤ a) : Perm.Le s (π.addL a) π :=
  ⟨fun _ _ h => h, fun x hx hp => hp.elim id fun e => absurd hx (by subst e; exact Nat.not_lt.2 h), fun _ _ h => h, fun _ h => h⟩

theorem Perm.Le.addD {s : St} {π : Perm} {a : Nat} (h : s.dts.length ≤ a) : Perm.Le s (π.addD a) π :=
  ⟨fun _ _ h => h, fun _ _ h => h, fun x hx hp => hp.elim id fun e => absurd hx (by subst e; exact Nat.not_lt.2 h), fun _ h => h⟩

theorem G.le {r : Prop} {π π' : Perm} {s s' : St} (g : G r π s s') (h : Perm.Le s π π') : G r π' s s' := g.weaken id h.b h.l h.d h.f

theorem G.mono {r : Prop} {π π' : Perm} {s0 s s' : St} {r0 : Prop} {π0 : Perm} (_ : G r0 π0 s0 s) (g : G r π s s') (h : Perm.Le s π π') : G r π' s s' := g.le h

/-- A step followed by one that is allowed to change more, but nothing of the first state. -/
theorem G.trans' {r : Prop} {π π' : Perm} {s t u : St} (h : G r π s t) (k : G r π' t u) (hle : Perm.Le s π' π) : G r π s u where
  bases := Nat.le_trans h.bases k.bases
  pmaps := Nat.le_trans h.pmaps k.pmaps
  ppmaps := Nat.le_trans h.ppmaps k.ppmaps
  fmaps := Nat.le_trans h.fmaps k.fmaps
  slices := h.slices.trans k.slices
  libsLen := Nat.le_trans h.libsLen k.libsLen
  dtsLen := Nat.le_trans h.dtsLen k.dtsLen
  nesLen := Nat.le_trans h.nesLen k.nesLen
  ids := Int.le_trans h.ids k.ids
  base := fun a ha hp => by
    have hp' : ¬ π'.b a := fun hq => hp (hle.b a ha hq)
    rcases h.base a ha hp with h1 | ⟨hr, h1, h2⟩
    · rcases k.base a (Nat.lt_of_lt_of_le ha h.bases) hp' with k1 | ⟨kr, k1, k2⟩
      · exact .inl (k1.trans h1)
      · exact .inr ⟨kr, fun ⟨b, hb, ht⟩ => k1 ⟨b, h1.trans hb, ht⟩, k2⟩
    · rcases k.base a (Nat.lt_of_lt_of_le ha h.bases) hp' with k1 | ⟨_, k1, _⟩
      · obtain ⟨b, hb, ht⟩ := h2
        exact .inr ⟨hr, h1, b, k1.trans hb, ht⟩
      · exact absurd h2 k1
  lib := fun i hi hp => (k.lib i (Nat.lt_of_lt_of_le hi h.libsLen) fun hq => hp (hle.l i hi hq)).trans (h.lib i hi hp)
  libLoc := fun i l hl => by
    obtain ⟨l1, h1, e1⟩ := h.libLoc i l hl
    obtain ⟨l2, h2, e2⟩ := k.libLoc i l1 h1
    exact ⟨l2, h2, e2.trans e1⟩
  dt := fun i hi hp => (k.dt i (Nat.lt_of_lt_of_le hi h.dtsLen) fun hq => hp (hle.d i hi hq)).trans (h.dt i hi hp)
  dtLoc := fun i l hl => by
    obtain ⟨l1, h1, e1⟩ := h.dtLoc i l hl
    obtain ⟨l2, h2, e2⟩ := k.dtLoc i l1 h1
    exact ⟨l2, h2, e2.trans e1⟩
  frag := fun p f hf => k.frag p f (h.frag p f hf)
  fresh := fun p f hf => (k.fresh p f hf).elim (fun h1 => h.fresh p f h1) fun h1 => .inr (hle.f p h1)
  unresolved := h.unresolved.trans k.unresolved
  loc := fun a b hb => by
    obtain ⟨b1, h1, e1⟩ := h.loc a b hb
    obtain ⟨b2, h2, e2⟩ := k.loc a b1 h1
    exact ⟨b2, h2, e2.trans e1⟩

section
variable {α β : Type} {E : Env} {K : Ctl} {r : Prop} {P P' π π' : Perm} {s s' : St} {m : M St α} {Q : α → St → Prop}

theorem Run.ok_of {x : α} (hm : m s = (.ok x, s')) (hw : W E P s') (hx : K.X s') (g : G r π s s') (hq : Q x s') : Run E K r P π m s Q := by
  unfold Run; rw [hm]; exact ⟨hw, hx, g, hq⟩

/-- A successful step that makes no library or data type. -/
theorem Run.step_of {x : α} (hm : m s = (.ok x, s')) (hw : W E P s') (hx : K.X s) (g : G r π s s') (hl : s'.libs.length = s.libs.length)
    (hd : s'.dts.length = s.dts.length) (hq : Q x s') : Run E K r P π m s Q :=
  Run.ok_of hm hw (K.closed π.f s s' hx (g.top.weaken (fun _ => trivial) (fun _ _ h => h) (fun _ _ h => h) (fun _ _ h => h) fun _ h => h) hl hd) g hq

theorem Run.of_eq {m' : M St α} (h : m s = m' s) (k : Run E K r P π m' s Q) : Run E K r P π m s Q := by
  unfold Run at k ⊢; rw [h]; exact k

theorem Run.ret {x : α} (hw : W E P s) (hx : K.X s) (hq : Q x s) : Run E K r P π (M.ret x) s Q := Run.ok_of rfl hw hx (G.refl _ _ _) hq

theorem Run.err {e : String} (hw : W E P s) (hx : K.X s) : Run E K r P' π (M.err e) s Q := ⟨hw.top _, hx, G.refl _ _ _⟩

theorem Run.panic {e : String} : Run E K r P π (M.panic e) s Q := trivial

theorem Run.lift {o : Out α} (hw : W E P s) (hx : K.X s) (ho : o ≠ .diverge) (hq : ∀ x, o = .ok x → Q x s) : Run E K r P π (M.lift o) s Q := by
  cases o with
  | ok x => exact Run.ok_of rfl hw hx (G.refl _ _ _) (hq x rfl)
  | err e => exact ⟨hw.top _, hx, G.refl _ _ _⟩
  | panic e => trivial
  | diverge => exact absurd rfl ho

theorem Run.bind' {f : α → M St β} {R : β → St → Prop} {π1 π2 : Perm} (h : Run E K r P π1 m s Q) (h1 : Perm.Le s π1 π) (h2 : Perm.Le s π2 π)
    (k : ∀ x s', W E P s' → K.X s' → G r π1 s s' → Q x s' → Run E K r P' π2 (f x) s' R) : Run E K r P' π (M.bind m f) s R := by
  unfold Run at h ⊢
  unfold M.bind
  cases hm : m s with
  | mk o t =>
    rw [hm] at h
    cases o with
    | ok x =>
      obtain ⟨hw, hx, g, hq⟩ := h
      have := k x t hw hx g hq
      unfold Run at this
      simp only
      cases hf : f x t with
      | mk o' u =>
        rw [hf] at this
        cases o' with
        | ok y => exact ⟨this.1, this.2.1, (g.le h1).trans' this.2.2.1 h2, this.2.2.2⟩
        | err e =>
          refine ⟨this.1.top _, this.2.1, ?_⟩
          exact (g.le h1).top.trans (this.2.2.weaken id (fun _ _ h => h) (fun _ _ h => h) (fun _ _ h => h) h2.f)
        | panic e => trivial
        | diverge => exact this
    | err e => exact ⟨h.1.top _, h.2.1, h.2.2.weaken id (fun _ _ h => h) (fun _ _ h => h) (fun _ _ h => h) h1.f⟩
    | panic e => trivial
    | diverge => exact h

theorem Run.bind {f : α → M St β} {R : β → St → Prop} (h : Run E K r P π m s Q)
    (k : ∀ x s', W E P s' → K.X s' → G r π s s' → Q x s' → Run E K r P' π (f x) s' R) : Run E K r P' π (M.bind m f) s R :=
  Run.bind' h (Perm.Le.refl _ _) (Perm.Le.refl _ _) k

theorem Run.mono {Q' : α → St → Prop} (h : Run E K r P π m s Q) (hle : Perm.Le s π π')
    (hq : ∀ x s', W E P s' → G r π s s' → Q x s' → W E P' s' ∧ Q' x s') : Run E K r P' π' m s Q' := by
  unfold Run at h ⊢
  cases hm : m s with
  | mk o t =>
    rw [hm] at h
    cases o with
    | ok x => exact ⟨(hq x t h.1 h.2.2.1 h.2.2.2).1, h.2.1, h.2.2.1.le hle, (hq x t h.1 h.2.2.1 h.2.2.2).2⟩
    | err e => exact ⟨h.1.top _, h.2.1, h.2.2.weaken id (fun _ _ h => h) (fun _ _ h => h) (fun _ _ h => h) hle.f⟩
    | panic e => trivial
    | diverge => exact h

theorem Run.post {Q' : α → St → Prop} (h : Run E K r P π m s Q) (hq : ∀ x s', W E P s' → G r π s s' → Q x s' → Q' x s') : Run E K r P π m s Q' :=
  h.mono (Perm.Le.refl _ _) fun x s' hw g hx => ⟨hw, hq x s' hw g hx⟩

theorem Run.resolving (h : Run E K False P π m s Q) : Run E K r P π m s Q := by
  unfold Run at h ⊢
  cases hm : m s with
  | mk o t =>
    rw [hm] at h
    cases o with
    | ok x => exact ⟨h.1, h.2.1, h.2.2.1.weaken False.elim (fun _ _ h => h) (fun _ _ h => h) (fun _ _ h => h) fun _ h => h, h.2.2.2⟩
    | err e => exact ⟨h.1, h.2.1, h.2.2.weaken False.elim (fun _ _ h => h) (fun _ _ h => h) (fun _ _ h => h) fun _ h => h⟩
    | panic e => trivial
    | diverge => exact h

end

/-! ## Steps that leave the bases as they are -/

section
variable {E : Env} {K : Ctl} {r : Prop} {P π : Perm} {s : St}

theorem Run.getBase {a : Addr} (hw : W E P s) (hx : K.X s) : Run E K r P π (Heap.getBase a) s (fun b s' => s' = s ∧ s.base a = some b) := by
  unfold Run Heap.getBase
  cases hb : s.base a with
  | none => trivial
  | some b => exact ⟨hw, hx, G.refl _ _ _, rfl, rfl⟩

theorem Run.newProps {m : OMap Property} (hw : W E P s) (hx : K.X s) (hm : ∀ e ∈ m, IsBase s e.2.base) :
    Run E K r P π (Heap.newProps m) s (fun i s' => i < s'.pmaps.length ∧ s'.bases = s.bases ∧ s'.slices = s.slices) := by
  have g : G r π s { s with pmaps := s.pmaps ++ [m] } := { G.refl r π s with pmaps := by simp }
  refine Run.step_of rfl (hw.step g rfl (fun _ h => h) (fun _ h => .inl h) ?_ (fun _ h => .inl h) (fun _ h => .inl h) (fun _ _ h => .inl ⟨h, id⟩) (fun _ _ h => .inl ⟨h, id⟩)
    (fun _ h => .inl h)) hx g rfl rfl ⟨by simp, rfl, rfl⟩
  intro m' hm'
  rcases List.mem_append.1 hm' with h | h
  · exact .inl h
  · simp only [List.mem_singleton] at h; subst h; exact .inr hm

theorem Run.newPatProps {m : OMap PatternProperty} (hw : W E P s) (hx : K.X s) (hm : ∀ e ∈ m, IsBase s e.2.base) :
    Run E K r P π (Heap.newPatProps m) s (fun i s' => i < s'.ppmaps.length ∧ s'.bases = s.bases) := by
  have g : G r π s { s with ppmaps := s.ppmaps ++ [m] } := { G.refl r π s with ppmaps := by simp }
  refine Run.step_of rfl (hw.step g rfl (fun _ h => h) (fun _ h => .inl h) (fun _ h => .inl h) ?_ (fun _ h => .inl h) (fun _ _ h => .inl ⟨h, id⟩) (fun _ _ h => .inl ⟨h, id⟩)
    (fun _ h => .inl h)) hx g rfl rfl ⟨by simp, rfl⟩
  intro m' hm'
  rcases List.mem_append.1 hm' with h | h
  · exact .inl h
  · simp only [List.mem_singleton] at h; subst h; exact .inr hm

theorem Run.newSlice {l : List Addr} (hw : W E P s) (hx : K.X s) (hm : ∀ a ∈ l, IsBase s a) :
    Run E K r P π (Heap.newSlice l) s (fun i s' => i < s'.slices.length ∧ s'.slice (some i) = l ∧ s'.bases = s.bases) := by
  have g : G r π s { s with slices := s.slices ++ [l] } := { G.refl r π s with slices := List.prefix_append _ _ }
  refine Run.step_of rfl (hw.step g rfl (fun _ h => h) (fun _ h => .inl h) (fun _ h => .inl h) (fun _ h => .inl h) ?_ (fun _ _ h => .inl ⟨h, id⟩) (fun _ _ h => .inl ⟨h, id⟩)
    (fun _ h => .inl h)) hx g rfl rfl ⟨by simp, by simp [St.slice], rfl⟩
  intro m' hm'
  rcases List.mem_append.1 hm' with h | h
  · exact .inl h
  · simp only [List.mem_singleton] at h; subst h; exact .inr hm

theorem mem_modify {α : Type} {l : List α} {i : Nat} {f : α → α} {x : α} (h : x ∈ l.modify i f) : x ∈ l ∨ ∃ y ∈ l, x = f y := by
  obtain ⟨j, hj⟩ := List.mem_iff_getElem?.1 h
  rw [List.getElem?_modify] at hj
  cases hl : l[j]? with
  | none => rw [hl] at hj; cases hj
  | some y =>
    rw [hl] at hj
    have hy : y ∈ l := List.mem_iff_getElem?.2 ⟨j, hl⟩
    have hj : (if i = j then f y else y) = x := by simpa using hj
    split at hj
    · exact .inr ⟨y, hy, hj.symm⟩
    · exact .inl (hj ▸ hy)

theorem mem_omap_set {α : Type} {m : OMap α} {k : String} {v : α} {e : String × α} (h : e ∈ OMap.set m k v) : e ∈ m ∨ e = (k, v) := by
  induction m with
  | nil => simp only [OMap.set, List.mem_singleton] at h; exact .inr h
  | cons x m ih =>
    obtain ⟨k', v'⟩ := x
    unfold OMap.set at h
    split at h
    · rename_i hk
      rcases List.mem_cons.1 h with h | h
      · exact .inr (by simp_all)
      · exact .inl (List.mem_cons_of_mem _ h)
    · rcases List.mem_cons.1 h with h | h
      · exact .inl (by simp [h])
      · rcases ih h with h | h
        · exact .inl (List.mem_cons_of_mem _ h)
        · exact .inr h

theorem Run.setProp {i : Nat} {k : String} {p : Property} (hw : W E P s) (hx : K.X s) (hp : IsBase s p.base) :
    Run E K r P π (Heap.setProp i k p) s (fun _ s' => s'.bases = s.bases ∧ s'.slices = s.slices) := by
  have g : G r π s { s with pmaps := s.pmaps.modify i fun m => OMap.set m k p } := { G.refl r π s with pmaps := by simp }
  refine Run.step_of rfl (hw.step g rfl (fun _ h => h) (fun _ h => .inl h) ?_ (fun _ h => .inl h) (fun _ h => .inl h) (fun _ _ h => .inl ⟨h, id⟩) (fun _ _ h => .inl ⟨h, id⟩)
    (fun _ h => .inl h)) hx g rfl rfl ⟨rfl, rfl⟩
  intro m hm
  rcases mem_modify hm with h | ⟨y, hy, rfl⟩
  · exact .inl h
  · refine .inr fun e he => ?_
    rcases mem_omap_set he with h | h
    · exact hw.props y hy e h
    · subst h; exact hp

theorem Run.setPatProp {i : Nat} {k : String} {p : PatternProperty} (hw : W E P s) (hx : K.X s) (hp : IsBase s p.base) :
    Run E K r P π (Heap.setPatProp i k p) s (fun _ s' => s'.bases = s.bases) := by
  have g : G r π s { s with ppmaps := s.ppmaps.modify i fun m => OMap.set m k p } := { G.refl r π s with ppmaps := by simp }
  refine Run.step_of rfl (hw.step g rfl (fun _ h => h) (fun _ h => .inl h) (fun _ h => .inl h) ?_ (fun _ h => .inl h) (fun _ _ h => .inl ⟨h, id⟩) (fun _ _ h => .inl ⟨h, id⟩)
    (fun _ h => .inl h)) hx g rfl rfl rfl
  intro m hm
  rcases mem_modify hm with h | ⟨y, hy, rfl⟩
  · exact .inl h
  · refine .inr fun e he => ?_
    rcases mem_omap_set he with h | h
    · exact hw.patProps y hy e h
    · subst h; exact hp

theorem Run.setFacet {i : Nat} {k : String} {v : GoVal} (hw : W E P s) (hx : K.X s) :
    Run E K r P π (Heap.setFacet i k v) s (fun _ s' => s'.bases = s.bases) := by
  have g : G r π s { s with fmaps := s.fmaps.modify i fun m => OMap.set m k v } := { G.refl r π s with fmaps := by simp }
  exact Run.step_of rfl (hw.step g rfl (fun _ h => h) (fun _ h => .inl h) (fun _ h => .inl h) (fun _ h => .inl h) (fun _ h => .inl h) (fun _ _ h => .inl ⟨h, id⟩)
    (fun _ _ h => .inl ⟨h, id⟩) (fun _ h => .inl h)) hx g rfl rfl rfl

theorem Run.pushUnresolved {a : Addr} (hw : W E P s) (hx : K.X s) (ha : IsBase s a) :
    Run E K r P π (Heap.pushUnresolved a) s (fun _ s' => s'.bases = s.bases ∧ a ∈ s'.unresolved) := by
  have g : G r π s { s with unresolved := s.unresolved ++ [a] } := { G.refl r π s with unresolved := List.prefix_append _ _ }
  refine Run.step_of rfl (hw.step g rfl (fun _ h => h) ?_ (fun _ h => .inl h) (fun _ h => .inl h) (fun _ h => .inl h) (fun _ _ h => .inl ⟨h, id⟩)
    (fun _ _ h => .inl ⟨h, id⟩) (fun _ h => .inl h)) hx g rfl rfl ⟨rfl, by simp⟩
  intro x hx
  rcases List.mem_append.1 hx with h | h
  · exact .inl h
  · simp only [List.mem_singleton] at h; subst h; exact .inr ha

theorem Run.newNE {m : OMap Example} (hw : W E P s) (hx : K.X s) :
    Run E K r P π (Heap.newNE m) s (fun i s' => i < s'.nes.length ∧ s'.bases = s.bases) := by
  have g : G r π s { s with nes := s.nes ++ [m] } := { G.refl r π s with nesLen := by simp }
  exact Run.step_of rfl (hw.step g rfl (fun _ h => h) (fun _ h => .inl h) (fun _ h => .inl h) (fun _ h => .inl h) (fun _ h => .inl h) (fun _ _ h => .inl ⟨h, id⟩)
    (fun _ _ h => .inl ⟨h, id⟩) (fun _ h => .inl h)) hx g rfl rfl ⟨by simp, rfl⟩

/-- Steps on fields the invariant does not read. -/
theorem Run.other {α : Type} {m : M St α} {x : α} {s' : St} (hw : W E P s) (hx : K.X s) (hm : m s = (.ok x, s')) (h1 : s'.bases = s.bases) (h2 : s'.pmaps = s.pmaps)
    (h3 : s'.ppmaps = s.ppmaps) (h4 : s'.fmaps = s.fmaps) (h5 : s'.slices = s.slices) (h6 : s'.libs = s.libs) (h7 : s'.dts = s.dts) (h8 : s'.nes = s.nes)
    (h9 : s'.idCounter = s.idCounter) (h10 : s'.fragments = s.fragments) (h11 : s'.unresolved = s.unresolved) :
    Run E K r P π m s (fun _ s' => s'.bases = s.bases) := by
  have g : G r π s s' :=
    { bases := by rw [h1]
      pmaps := by rw [h2]
      ppmaps := by rw [h3]
      fmaps := by rw [h4]
      slices := by rw [h5]
      libsLen := by rw [h6]
      dtsLen := by rw [h7]
      nesLen := by rw [h8]
      ids := by rw [h9]
      base := fun a _ _ => .inl (by simp only [St.base, h1])
      lib := fun i _ _ => by rw [h6]
      libLoc := fun i l hl => ⟨l, by rw [h6]; exact hl, rfl⟩
      dt := fun i _ _ => by rw [h7]
      dtLoc := fun i l hl => ⟨l, by rw [h7]; exact hl, rfl⟩
      frag := fun p f hf => by simpa only [getFragment, h10] using hf
      fresh := fun p f hf => .inl (by simpa only [getFragment, h10] using hf)
      unresolved := by rw [h11]
      loc := fun a b hb => ⟨b, by simpa only [St.base, h1] using hb, rfl⟩ }
  refine Run.step_of hm (hw.step g h1 (fun _ h => h) ?_ ?_ ?_ ?_ ?_ ?_ ?_) hx g (by rw [h6]) (by rw [h7]) h1
  · rw [h11]; exact fun _ h => .inl h
  · rw [h2]; exact fun _ h => .inl h
  · rw [h3]; exact fun _ h => .inl h
  · rw [h5]; exact fun _ h => .inl h
  · rw [h6]; exact fun _ _ h => .inl ⟨h, id⟩
  · rw [h7]; exact fun _ _ h => .inl ⟨h, id⟩
  · rw [h10]; exact fun _ h => .inl h

theorem Run.putType {name location : String} {a : Addr} (hw : W E P s) (hx : K.X s) : Run E K r P π (Heap.putType name location a) s (fun _ s' => s'.bases = s.bases) :=
  Run.other hw hx rfl rfl rfl rfl rfl rfl rfl rfl rfl rfl rfl rfl

theorem Run.putAnnotationType {name location : String} {a : Addr} (hw : W E P s) (hx : K.X s) :
    Run E K r P π (Heap.putAnnotationType name location a) s (fun _ s' => s'.bases = s.bases) :=
  Run.other hw hx rfl rfl rfl rfl rfl rfl rfl rfl rfl rfl rfl rfl

/-! ## Changing and making bases -/

theorem Run.updBase {a : Addr} {f : Base → Base} (hw : W E P s) (hx : K.X s) (hπ : π.b a)
    (hf : ∀ b, s.base a = some b → BaseIn s (f b) ∧ (f b).id = b.id ∧ (P.b a ∨ Settled s a (f b)))
    (hloc : ∀ b, s.base a = some b → (f b).location = b.location := by intro _ _; rfl) :
    Run E K r P π (Heap.updBase a f) s (fun _ s' => s' = { s with bases := s.bases.modify a f }) :=
  Run.step_of rfl (hw.upd hf) hx (G.upd hπ hloc) rfl rfl rfl

/-- The base that `MakeBaseShape` makes. -/
def newBaseOf (s : St) (name location : String) : Base :=
  { id := s.idCounter + 1, name, location, facets := some s.fmaps.length, facetDefs := some s.pmaps.length }

theorem Run.makeBaseShape {name location : String} (hw : W E P s) (hx : K.X s) :
    Run E K r (P.addB s.bases.length) π (makeBaseShape name location) s (fun a s' => a = s.bases.length ∧ s'.base a = some (newBaseOf s name location)) := by
  let t : St := { s with idCounter := s.idCounter + 1, fmaps := s.fmaps ++ [[]], pmaps := s.pmaps ++ [[]], bases := s.bases ++ [newBaseOf s name location],
                         shapes := s.shapes ++ [s.bases.length] }
  have hm : GoRaml.makeBaseShape name location s = (.ok s.bases.length, t) := rfl
  have hb : ∀ x b, t.base x = some b → s.base x = some b ∨ (x = s.bases.length ∧ b = newBaseOf s name location) := by
    intro x b hxb
    have hxb : (s.bases ++ [newBaseOf s name location])[x]? = some b := hxb
    by_cases hlt : x < s.bases.length
    · rw [List.getElem?_append_left hlt] at hxb; exact .inl hxb
    · have hle : s.bases.length ≤ x := Nat.not_lt.1 hlt
      rw [List.getElem?_append_right hle] at hxb
      have : x - s.bases.length = 0 := by
        by_contra hne
        have hge : 1 ≤ x - s.bases.length := Nat.one_le_iff_ne_zero.2 hne
        rw [List.getElem?_eq_none (by simpa using hge)] at hxb; cases hxb
      rw [this] at hxb
      exact .inr ⟨Nat.le_antisymm (Nat.sub_eq_zero_iff_le.1 this) hle, by simpa using hxb.symm⟩
  have g : G r π s t :=
    { G.refl r π s with
      bases := by simp [t]
      pmaps := by simp [t]
      fmaps := by simp [t]
      ids := by simp [t]
      base := fun x hx' _ => .inl (show (s.bases ++ [newBaseOf s name location])[x]? = s.bases[x]? from List.getElem?_append_left hx')
      loc := fun x b hb => ⟨b, (show (s.bases ++ [newBaseOf s name location])[x]? = s.bases[x]? from List.getElem?_append_left (List.getElem?_eq_some_iff.1 hb).1).trans hb, rfl⟩ }
  have hB : ∀ x, IsBase s x → IsBase t x := fun x hx => g.isBase hx
  refine Run.step_of hm ?_ hx g rfl rfl ⟨rfl, show (s.bases ++ [newBaseOf s name location])[s.bases.length]? = _ by simp⟩
  exact
    { base := fun x b hxb => by
        rcases hb x b hxb with h | ⟨rfl, rfl⟩
        · exact (hw.base x b h).mono g.longer
        · exact ⟨ifSome_none, ⟨_, rfl, by simp [t]⟩, ifSome_some (by simp [t]), ifSome_none, ifSome_none, ifSome_none⟩
      settled := fun x b hxb hp => by
        rcases hb x b hxb with h | ⟨rfl, rfl⟩
        · exact (hw.settled x b h fun hq => hp (.inl hq)).mono fun _ h => h
        · exact absurd (.inr rfl) hp
      idLe := fun x b hxb => by
        rcases hb x b hxb with h | ⟨rfl, rfl⟩
        · exact Int.le_trans (hw.idLe x b h) g.ids
        · exact Int.le_refl _
      idInj := fun x y b c hxb hyc hbc => by
        rcases hb x b hxb with h | ⟨rfl, rfl⟩ <;> rcases hb y c hyc with h' | ⟨rfl, rfl⟩
        · exact hw.idInj x y b c h h' hbc
        · have := hw.idLe x b h
          rw [hbc] at this
          exact absurd this (by simp [newBaseOf])
        · have := hw.idLe y c h'
          rw [← hbc] at this
          exact absurd this (by simp [newBaseOf])
        · rfl
      props := fun m hm' e he => by
        rcases List.mem_append.1 hm' with h | h
        · exact hB _ (hw.props m h e he)
        · simp only [List.mem_singleton] at h; subst h; cases he
      patProps := fun m hm' e he => hB _ (hw.patProps m hm' e he)
      slices := fun m hm' e he => hB _ (hw.slices m hm' e he)
      lib := fun i l hi => (hw.lib i l hi).mono g.longer
      libLinked := fun i l hi hq => (hw.libLinked i l hi hq).mono g
      dt := fun i l hi => (hw.dt i l hi).mono g.longer
      dtLinked := fun i l hi hq => (hw.dtLinked i l hi hq).mono g
      frags := fun e he => (hw.frags e he).mono g
      unresolved := fun a ha => hB _ (hw.unresolved a ha) }

/-! ## Registering fragments -/

theorem getFragment_put {s : St} {path : String} {f : FragRef} (p : String) :
    getFragment { s with fragments := OMap.set s.fragments path f } p = if p = path then some f else getFragment s p := by
  show OMap.get (OMap.set s.fragments path f) p = _
  rw [OMap.get_set]
  rfl

theorem G.put {s : St} {path : String} {f : FragRef} (hn : OMap.get s.fragments path = none) (hπ : π.f path) :
    G r π s { s with fragments := OMap.set s.fragments path f } :=
  { G.refl r π s with
    frag := fun p g hg => by
      rw [getFragment_put]
      by_cases hp : p = path
      · subst hp; rw [getFragment, hn] at hg; cases hg
      · rw [if_neg hp]; exact hg
    fresh := fun p g hg => by
      rw [getFragment_put] at hg
      by_cases hp : p = path
      · subst hp; exact .inr hπ
      · rw [if_neg hp] at hg; exact .inl hg }

theorem Run.putFragment {path : String} {f : FragRef} (hw : W E P s) (hx : K.X s) (hπ : π.f path) (hf : FragIn s path f) :
    Run E K r P π (putFragment path f) s (fun _ s' => s'.bases = s.bases ∧ s'.libs = s.libs ∧ s'.dts = s.dts ∧ s'.nes = s.nes ∧ ∃ f', getFragment s' path = some f') := by
  cases hn : OMap.get s.fragments path with
  | some f' =>
    have hm : GoRaml.putFragment path f s = (.ok (), s) := by unfold GoRaml.putFragment; rw [hn]
    exact Run.ok_of hm hw hx (G.refl _ _ _) ⟨rfl, rfl, rfl, rfl, f', hn⟩
  | none =>
    have hm : GoRaml.putFragment path f s = (.ok (), { s with fragments := OMap.set s.fragments path f }) := by unfold GoRaml.putFragment; rw [hn]
    have g : G r π s { s with fragments := OMap.set s.fragments path f } := G.put hn hπ
    refine Run.step_of hm (hw.step g rfl (fun _ h => h) (fun _ h => .inl h) (fun _ h => .inl h) (fun _ h => .inl h) (fun _ h => .inl h) (fun _ _ h => .inl ⟨h, id⟩)
      (fun _ _ h => .inl ⟨h, id⟩) ?_) hx g rfl rfl ⟨rfl, rfl, rfl, rfl, f, by rw [getFragment_put, if_pos rfl]⟩
    intro e he
    rcases mem_omap_set he with h | h
    · exact .inl h
    · subst h; exact .inr (hf.mono g)

end

end GoRaml.Load
