import Verif.Lemmas.StopsInherit
import Verif.Lemmas.Fuel

/-!
# Unwrapping without unions and custom facets stops (C79)
-/

namespace GoRaml.Stops

open GoRaml

/-! ## Runs that do not depend on large enough numbers of steps -/

/-- From some numbers of steps on the result is the same; it is an answer, and the final state satisfies `P`. -/
def Halts {α : Type} (P : St → Prop) (m : Nat → Nat → M St α) (s : St) : Prop :=
  ∃ N o, (∀ n l, N ≤ n → N ≤ l → m n l s = o) ∧ o.1 ≠ .diverge ∧ P o.2

section
variable {α β : Type} {P Q : St → Prop} {s : St}

theorem Halts.bind {m : Nat → Nat → M St α} {f : Nat → Nat → α → M St β} (h : Halts P m s) (hpq : ∀ s', P s' → Q s')
    (k : ∀ x s', P s' → (∃ N, ∀ n l, N ≤ n → N ≤ l → m n l s = (.ok x, s')) → Halts Q (fun n l => f n l x) s') : Halts Q (fun n l => M.bind (m n l) (f n l)) s := by
  obtain ⟨N, ⟨o, s'⟩, h1, h2, h3⟩ := h
  cases o with
  | ok x =>
    obtain ⟨N', o', k1, k2, k3⟩ := k x s' h3 ⟨N, h1⟩
    exact ⟨max N N', o', fun n l hn hl => by
      show M.bind (m n l) (f n l) s = o'
      rw [bind_first (h1 n l (by omega) (by omega))]
      exact k1 n l (by omega) (by omega), k2, k3⟩
  | err e => exact ⟨N, (.err e, s'), fun n l hn hl => by simp only [M.bind, h1 n l hn hl], by simp, hpq _ h3⟩
  | panic e => exact ⟨N, (.panic e, s'), fun n l hn hl => by simp only [M.bind, h1 n l hn hl], by simp, hpq _ h3⟩
  | diverge => exact absurd rfl h2

theorem Halts.mono {m : Nat → Nat → M St α} (h : Halts P m s) (hpq : ∀ s', P s' → Q s') : Halts Q m s := h.imp fun _ ⟨o, h1, h2, h3⟩ => ⟨o, h1, h2, hpq _ h3⟩

theorem Halts.const {m : M St α} (h1 : (m s).1 ≠ .diverge) (h2 : P (m s).2) : Halts P (fun _ _ => m) s := ⟨0, m s, fun _ _ _ _ => rfl, h1, h2⟩

/-- One step less. -/
theorem Halts.steps {m : Nat → Nat → M St α} (h : Halts P (fun n _ => m (n + 1) 0) s) : Halts P (fun n _ => m n 0) s := by
  obtain ⟨N, o, h1, h2⟩ := h
  refine ⟨N + 1, o, fun n l hn hl => ?_, h2⟩
  obtain ⟨n, rfl⟩ : ∃ k, n = k + 1 := ⟨n - 1, by omega⟩
  exact h1 n N (by omega) (Nat.le_refl _)

theorem Halts.loop {m : Nat → Nat → M St α} (h : Halts P (fun n l => m n (l + 1)) s) : Halts P m s := by
  obtain ⟨N, o, h1, h2⟩ := h
  refine ⟨N + 1, o, fun n l hn hl => ?_, h2⟩
  obtain ⟨l, rfl⟩ : ∃ k, l = k + 1 := ⟨l - 1, by omega⟩
  exact h1 n l (by omega) (by omega)

/-- The same number for both. -/
theorem Halts.diag {m : Nat → Nat → M St α} (h : Halts P m s) : Halts P (fun n _ => m n n) s := by
  obtain ⟨N, o, h1, h2⟩ := h
  exact ⟨N, o, fun n _ hn _ => h1 n n hn hn, h2⟩

theorem Halts.congr {m m' : Nat → Nat → M St α} (h : Halts P m s) (e : ∀ n l, m' n l s = m n l s) : Halts P m' s := by
  obtain ⟨N, o, h1, h2⟩ := h
  exact ⟨N, o, fun n l hn hl => (e n l).trans (h1 n l hn hl), h2⟩
end

section
variable {α : Type} {D : Zone} {s s0 : St}

/-- The invariant, later than `s0`. -/
def After (D : Zone) (s0 s : St) : Prop := Inv D s ∧ Step s0 s

theorem After.later {s0 s1 s : St} (p : Step s0 s1) (h : After D s1 s) : After D s0 s := ⟨h.1, p.trans h.2⟩

theorem Runs.halts {m : M St α} (h : Runs D s0 m s) : Halts (After D s0) (fun _ _ => m) s := .const h.1 h.2

theorem Halts.first {β : Type} {m : M St α} {f : Nat → Nat → α → M St β} {P : St → Prop} (h : Runs D s m s) (hp : ∀ s', After D s s' → P s')
    (k : ∀ x s', m s = (.ok x, s') → Inv D s' → Step s s' → Halts P (fun n l => f n l x) s') : Halts P (fun n l => M.bind m (f n l)) s :=
  Halts.bind h.halts hp fun x s' p ⟨N, e⟩ => k x s' (e N N (Nat.le_refl _) (Nat.le_refl _)) p.1 p.2

theorem inherit_halts (i : Inv D s) (a b : Addr) : Halts (After D s) (fun n _ => inherit n a b) s := by
  have h := inherit_runs (unseen s + 1) s i (Nat.lt_succ_self _) a b
  exact ⟨unseen s + 1, _, fun n _ hn _ => Fuel.inherit_at _ _ hn a b s h.1, h.1, h.2⟩

/-- What a call of `unwrap` leads to: nothing has changed, or a further type is unwrapped. -/
def Less (D : Zone) (s s' : St) : Prop := After D s s' ∧ (s' = s ∨ wrapped s' < wrapped s)

/-- Calls come to an end where fewer than `w` types are left. -/
def Rec (D : Zone) (w : Nat) : Prop := ∀ s, Inv D s → wrapped s < w → ∀ a, Halts (Less D s) (fun n _ => unwrap n a) s

theorem setPropAt_runs {j k : Nat} {p : String × Property} (i : Inv D s) : Runs D s (Heap.setPropAt j k p) s :=
  .tables i rfl rfl fun j' hj' => by
    have := i.none j' hj'
    simp only [St.props, List.getElem?_modify] at this ⊢
    rw [this]
    cases hx : s.pmaps[j']? with
    | none => simp
    | some x =>
      rw [hx] at this
      simp only [Option.getD_some] at this
      subst this
      by_cases e : j = j' <;> simp [e]

theorem setPatPropAt_runs {j k : Nat} {p : String × PatternProperty} (i : Inv D s) : Runs D s (Heap.setPatPropAt j k p) s := .tables i rfl rfl fun _ _ => rfl
theorem setSliceAt_runs {j k : Nat} {a : Addr} (i : Inv D s) : Runs D s (Heap.setSliceAt j k a) s := .tables i rfl rfl fun _ _ => rfl
theorem putShape_runs {a : Addr} (i : Inv D s) : Runs D s (Heap.putShape a) s := .tables i rfl rfl fun _ _ => rfl

theorem setPropAt_length {j k : Nat} {p : String × Property} : ((Heap.setPropAt j k p s).2.props (some j)).length = (s.props (some j)).length := by
  simp only [Heap.setPropAt, St.props, List.getElem?_modify]
  cases hx : s.pmaps[j]? with
  | none => simp
  | some x => simp

theorem setPatPropAt_length {j k : Nat} {p : String × PatternProperty} : ((Heap.setPatPropAt j k p s).2.patProps (some j)).length = (s.patProps (some j)).length := by
  simp only [Heap.setPatPropAt, St.patProps, List.getElem?_modify]
  cases hx : s.ppmaps[j]? with
  | none => simp
  | some x => simp

theorem unwrapProps_halts {w : Nat} (hr : Rec D w) (j : Nat) (s : St) (k : Nat) (i : Inv D s) (hw : wrapped s < w) :
    Halts (After D s) (fun n l => unwrapProps (unwrap n) j l k) s := by
  refine .loop ?_
  cases hk : (s.props (some j))[k]? with
  | none => exact .congr (.const (m := M.ret ()) (by simp [M.ret]) ⟨i, .refl s⟩) fun n l => by simp only [unwrapProps, hk]; rfl
  | some kp =>
    have hlen := (List.getElem?_eq_some_iff.1 hk).1
    refine .congr (m := fun n l => M.bind (unwrap n kp.2.base) fun us =>
      M.bind (Heap.setPropAt j k (kp.1, { kp.2 with base := us })) fun _ => unwrapProps (unwrap n) j l (k + 1)) ?_ fun n l => by simp only [unwrapProps, hk]
    refine .bind (hr s i hw kp.2.base) (fun _ h => h.1) fun us s1 h1 _ => ?_
    refine .first (setPropAt_runs h1.1.1) (fun _ h => h.later h1.1.2) fun _ s2 e2 i2 p2 => ?_
    have p := h1.1.2.trans p2
    refine .mono (unwrapProps_halts hr j s2 (k + 1) i2 (Nat.lt_of_le_of_lt p.wrapped hw)) fun _ h => h.later p
termination_by (wrapped s, (s.props (some j)).length - k)
decreasing_by
  rcases h1.2 with heq | hlt
  · rcases Nat.lt_or_eq_of_le p.wrapped with hl | he
    · exact Prod.Lex.left _ _ hl
    · rw [← he]
      refine Prod.Lex.right _ ?_
      have := setPropAt_length (s := s1) (j := j) (k := k) (p := (kp.1, { kp.2 with base := us }))
      rw [e2, heq] at this
      simp only at this
      omega
  · exact Prod.Lex.left _ _ (Nat.lt_of_le_of_lt p2.wrapped hlt)

theorem unwrapPatProps_halts {w : Nat} (hr : Rec D w) (j : Nat) (s : St) (k : Nat) (i : Inv D s) (hw : wrapped s < w) :
    Halts (After D s) (fun n l => unwrapPatProps (unwrap n) j l k) s := by
  refine .loop ?_
  cases hk : (s.patProps (some j))[k]? with
  | none => exact .congr (.const (m := M.ret ()) (by simp [M.ret]) ⟨i, .refl s⟩) fun n l => by simp only [unwrapPatProps, hk]; rfl
  | some kp =>
    have hlen := (List.getElem?_eq_some_iff.1 hk).1
    refine .congr (m := fun n l => M.bind (unwrap n kp.2.base) fun us =>
      M.bind (Heap.setPatPropAt j k (kp.1, { kp.2 with base := us })) fun _ => unwrapPatProps (unwrap n) j l (k + 1)) ?_ fun n l => by simp only [unwrapPatProps, hk]
    refine .bind (hr s i hw kp.2.base) (fun _ h => h.1) fun us s1 h1 _ => ?_
    refine .first (setPatPropAt_runs h1.1.1) (fun _ h => h.later h1.1.2) fun _ s2 e2 i2 p2 => ?_
    have p := h1.1.2.trans p2
    refine .mono (unwrapPatProps_halts hr j s2 (k + 1) i2 (Nat.lt_of_le_of_lt p.wrapped hw)) fun _ h => h.later p
termination_by (wrapped s, (s.patProps (some j)).length - k)
decreasing_by
  rcases h1.2 with heq | hlt
  · rcases Nat.lt_or_eq_of_le p.wrapped with hl | he
    · exact Prod.Lex.left _ _ hl
    · rw [← he]
      refine Prod.Lex.right _ ?_
      have := setPatPropAt_length (s := s1) (j := j) (k := k) (p := (kp.1, { kp.2 with base := us }))
      rw [e2, heq] at this
      simp only at this
      omega
  · exact Prod.Lex.left _ _ (Nat.lt_of_le_of_lt p2.wrapped hlt)

theorem unwrapTarget_halts {w : Nat} (hr : Rec D w) {a : Addr} (i : Inv D s) (hw : wrapped s < w) : Halts (After D s) (fun n _ => unwrapTarget (unwrap n) n a) s := by
  refine .congr (m := fun n _ => unwrapTargetShape (unwrap n) n a (s.shapeAt a)) ?_ fun n l => rfl
  cases hs : s.shapeAt a with
  | none => exact .const (by simp [unwrapTargetShape, M.ret]) ⟨i, .refl s⟩
  | some q =>
    cases q with
    | array f =>
      cases hf : f.items with
      | none => exact .congr (.const (m := M.ret ()) (by simp [M.ret]) ⟨i, .refl s⟩) fun n l => by simp only [unwrapTargetShape, hf, whenSome]
      | some x =>
        refine .congr (m := fun n _ => M.bind (unwrap n x) fun us => fun h' => setArray a { arrayAt h' a with items := some us } h') ?_ fun n l => by simp only [unwrapTargetShape, hf, whenSome]
        exact .bind (hr s i hw x) (fun _ h => h.1) fun us s1 h1 _ => .mono (Runs.halts (setArray_runs (a := a) (f := { arrayAt s1 a with items := some us }) h1.1.1)) fun _ h => h.later h1.1.2
    | object f =>
      refine .congr (m := fun n _ => M.bind (whenSome f.properties fun j => unwrapProps (unwrap n) j n 0) fun _ => fun h' =>
        whenSome (objectAt h' a).patternProperties (fun j => unwrapPatProps (unwrap n) j n 0) h') ?_ fun n l => by simp only [unwrapTargetShape]
      refine .bind (P := After D s) ?_ (fun _ h => h) fun _ s1 h1 _ => ?_
      · cases hf : f.properties with
        | none => exact .const (by simp [whenSome, M.ret]) ⟨i, .refl s⟩
        | some j => exact (unwrapProps_halts hr j s 0 i hw).diag
      · refine .congr (m := fun n _ => whenSome (objectAt s1 a).patternProperties fun j => unwrapPatProps (unwrap n) j n 0) ?_ fun n l => rfl
        cases hf : (objectAt s1 a).patternProperties with
        | none => exact .const (by simp [whenSome, M.ret]) h1
        | some j => exact (unwrapPatProps_halts hr j s1 0 h1.1 (Nat.lt_of_le_of_lt h1.2.wrapped hw)).diag.mono fun _ h => h.later h1.2
    | union l e =>
      obtain ⟨b, hb, hbs⟩ := Option.bind_eq_some_iff.1 hs
      exact absurd hbs (i.plain a b _ _ hb)
    | _ => exact .const (by simp [unwrapTargetShape, M.ret]) ⟨i, .refl s⟩

theorem unwrapMoreParents_halts {w : Nat} (hr : Rec D w) (ss : Addr) (j : Nat) : ∀ (left k : Nat) (s : St), Inv D s → wrapped s < w →
    Halts (After D s) (fun n _ => unwrapMoreParents (unwrap n) n ss j left k) s
  | 0, _, s, i, _ => .const (by simp [unwrapMoreParents, M.ret]) ⟨i, .refl s⟩
  | left + 1, k, s, i, hw => by
    cases hk : (s.slice (some j))[k]? with
    | none => exact .congr (.const (m := M.ret ()) (by simp [M.ret]) ⟨i, .refl s⟩) fun n l => by simp only [unwrapMoreParents, hk]; rfl
    | some p =>
      refine .congr (m := fun n _ => M.bind (unwrap n p) fun us => M.bind (inherit n ss us) fun us' =>
        M.bind (Heap.setSliceAt j k us') fun _ => unwrapMoreParents (unwrap n) n ss j left (k + 1)) ?_ fun n l => by simp only [unwrapMoreParents, hk]
      refine .bind (hr s i hw p) (fun _ h => h.1) fun us s1 h1 _ => ?_
      refine .bind (inherit_halts h1.1.1 ss us) (fun _ h => h.later h1.1.2) fun us' s2 h2 _ => ?_
      have q2 := h1.1.2.trans h2.2
      refine .first (setSliceAt_runs h2.1) (fun _ h => h.later q2) fun _ s3 _ i3 p3 => ?_
      exact (unwrapMoreParents_halts hr ss j left (k + 1) s3 i3 (Nat.lt_of_le_of_lt (q2.trans p3).wrapped hw)).mono fun _ h => h.later (q2.trans p3)

theorem unwrapParents_halts {w : Nat} (hr : Rec D w) {a : Addr} (i : Inv D s) (hw : wrapped s < w) : Halts (After D s) (fun n _ => unwrapParents (unwrap n) n a) s := by
  unfold unwrapParents
  refine .first (.getBase i) (fun _ h => h) fun b s1 e _ _ => ?_
  obtain ⟨rfl, hb⟩ := getBase_ok e
  cases hl : b.link with
  | some d =>
    cases hd : (s1.dts[d]?).bind (·.shape) with
    | none => exact .congr (.const (m := M.panic "nil pointer dereference") (by simp [M.panic]) ⟨i, .refl _⟩) fun n l => by simp only [hd]; rfl
    | some x =>
      refine .congr (m := fun n _ => M.bind (unwrap n x) fun us =>
        M.bind (Heap.updBase a fun y => { y with link := none }) fun _ => M.ret (some us)) ?_ fun n l => by simp only [hd]
      refine .bind (hr s1 i hw x) (fun _ h => h.1) fun us s2 h2 _ => ?_
      refine .first (.upd h2.1.1 fun y hy => h2.1.1.fit hy rfl rfl id id) (fun _ h => h.later h2.1.2) fun _ s3 _ i3 p3 => ?_
      exact .const (by simp [M.ret]) ⟨i3, h2.1.2.trans p3⟩
  | none =>
    cases hi : b.inherits with
    | none => exact .congr (.const (m := M.ret none) (by simp [M.ret]) ⟨i, .refl _⟩) fun n l => rfl
    | some j =>
      cases hs : s1.slice (some j) with
      | nil => exact .congr (.const (m := M.ret none) (by simp [M.ret]) ⟨i, .refl _⟩) fun n l => by simp only [hs]; rfl
      | cons p ps =>
        refine .congr (m := fun n _ => M.bind (unwrap n p) fun ss => M.bind (Heap.setSliceAt j 0 ss) fun _ =>
          M.bind (unwrapMoreParents (unwrap n) n ss j ps.length 1) fun _ => M.ret (some ss)) ?_ fun n l => by simp only [hs]
        refine .bind (hr s1 i hw p) (fun _ h => h.1) fun ss s2 h2 _ => ?_
        refine .first (setSliceAt_runs h2.1.1) (fun _ h => h.later h2.1.2) fun _ s3 _ i3 p3 => ?_
        have q3 := h2.1.2.trans p3
        refine .bind (unwrapMoreParents_halts hr ss j _ _ s3 i3 (Nat.lt_of_le_of_lt q3.wrapped hw)) (fun _ h => h.later q3) fun _ s4 h4 _ => ?_
        exact .const (by simp [M.ret]) (h4.later q3)

theorem unwrapFinish_halts {a : Addr} {o : Option Addr} (i : Inv D s) : Halts (After D s) (fun n _ => unwrapFinish n a o) s := by
  unfold unwrapFinish
  refine .bind (P := After D s) ?_ (fun _ h => h) fun r s1 h1 _ => ?_
  · cases o with
    | none => exact .const (by simp [M.ret]) ⟨i, .refl s⟩
    | some x => exact inherit_halts i a x
  · exact .first (putShape_runs h1.1) (fun _ h => h.later h1.2) fun _ s2 _ i2 p2 => .const (by simp [M.ret]) ⟨i2, h1.2.trans p2⟩

theorem aliasShape_keeps {t u q : Shape} (h : aliasShape t u = .ok q) : q = u ∨ ∃ e, q = .boolean e := by
  unfold aliasShape at h
  split at h <;> first | (cases h; done) | (cases h; exact .inl rfl) | (cases h; exact .inr ⟨_, rfl⟩)

theorem aliasShape_stops {t u : Shape} : aliasShape t u ≠ .diverge := by
  unfold aliasShape
  split <;> simp

theorem aliasTo_runs {a b : Addr} (i : Inv D s) : Runs D s (aliasTo a b) s := by
  unfold aliasTo
  refine .bind (.getShape i) (.refl s) fun t s1 e _ _ => ?_
  obtain ⟨rfl, _⟩ := getShape_ok e
  refine .bind (.getShape i) (.refl _) fun u s1 e _ _ => ?_
  obtain ⟨rfl, hu⟩ := getShape_ok e
  obtain ⟨y, hy, hys⟩ := Option.bind_eq_some_iff.1 hu
  refine .bind (.lift aliasShape_stops i (.refl _)) (.refl _) fun q s2 e _ _ => ?_
  obtain ⟨e', rfl⟩ := Prod.mk.inj e
  have hq := aliasShape_keeps e'
  refine .bind (setShape_runs i (fun l e h => ?_) fun f j h hj => ?_) (.refl _) fun _ s3 _ i3 p3 => ?_
  · rcases hq with rfl | ⟨_, rfl⟩
    · exact i.plain b y l _ hy (h ▸ hys)
    · cases h
  · rcases hq with rfl | ⟨_, rfl⟩
    · exact i.props b y f j hy (h ▸ hys) hj
    · cases h
  refine .bind (.getBase i3) p3 fun src s4 e _ _ => ?_
  obtain ⟨rfl, hsrc⟩ := getBase_ok e
  refine .bind (.upd i3 fun x hx => ⟨(i3.plain a x · · hx), (i3.defs b src · hsrc), (i3.props a x · · hx), id, id⟩) p3 fun _ s5 _ i5 p5 => .ret i5 (p3.trans p5)

theorem newProps_runs (i : Inv D s) (hD : ∀ i, D.defs i ∧ ¬ D.empty i) : Runs D s (Heap.newProps []) s := .tables i rfl rfl fun j hj => absurd hj (hD j).2

theorem oset_length {k : String} {v : Property} : ∀ {o : OMap Property}, k ∈ o.map (·.1) → (OMap.set o k v).length = o.length
  | [], h => by cases h
  | (k', v') :: o, h => by
    unfold OMap.set
    split
    · rfl
    · rename_i hk
      rcases List.mem_cons.1 h with h | h
      · exact absurd h.symm hk
      · simp [oset_length h]

/-- Custom facets, in any number. -/
theorem unwrapFacetDefs_halts {w : Nat} (hr : Rec D w) (hD : ∀ i, D.defs i ∧ ¬ D.empty i) (a : Addr) (j : Nat) (s : St) (k : Nat) (i : Inv D s) (hw : wrapped s < w) :
    Halts (After D s) (fun n l => unwrapFacetDefs (unwrap n) a j l k) s := by
  refine .loop ?_
  cases hk : (s.props (some j))[k]? with
  | none => exact .congr (.const (m := M.ret ()) (by simp [M.ret]) ⟨i, .refl s⟩) fun n l => by simp only [unwrapFacetDefs, hk]; rfl
  | some kp =>
    have hlen := (List.getElem?_eq_some_iff.1 hk).1
    refine .congr (m := fun n l => M.bind (unwrap n kp.2.base) fun us =>
      M.bind (Heap.newProps []) fun j' =>
      M.bind (Heap.updBase us fun y => { y with facetDefs := some j' }) fun _ =>
      M.bind (Heap.getBase a) fun b =>
      M.bind (whenSome b.facetDefs fun i' => Heap.setProp i' kp.1 { kp.2 with base := us }) fun _ => unwrapFacetDefs (unwrap n) a j l (k + 1)) ?_
      fun n l => by simp only [unwrapFacetDefs, hk]
    refine .bind (hr s i hw kp.2.base) (fun _ h => h.1) fun us s1 h1 _ => ?_
    refine .first (newProps_runs h1.1.1 hD) (fun _ h => h.later h1.1.2) fun j' s2 e2 i2 p2 => ?_
    have q2 := h1.1.2.trans p2
    refine .first (.upd i2 fun y hy => ⟨(i2.plain us y · · hy), fun i _ => (hD i).1, fun _ i _ _ => (hD i).2, id, id⟩) (fun _ h => h.later q2) fun _ s3 e3 i3 p3 => ?_
    have q3 := q2.trans p3
    refine .first (.getBase i3) (fun _ h => h.later q3) fun b s4 e4 _ _ => ?_
    obtain ⟨rfl, hb⟩ := getBase_ok e4
    have hset : Runs D s4 (whenSome b.facetDefs fun i' => Heap.setProp i' kp.1 { kp.2 with base := us }) s4 := by
      cases b.facetDefs with
      | none => exact .ret i3 (.refl _)
      | some i' => exact setProp_runs i3 (hD i').2
    refine .first hset (fun _ h => h.later q3) fun _ s5 e5 i5 p5 => ?_
    have p := q3.trans p5
    refine .mono (unwrapFacetDefs_halts hr hD a j s5 (k + 1) i5 (Nat.lt_of_le_of_lt p.wrapped hw)) fun _ h => h.later p
termination_by (wrapped s, (s.props (some j)).length - k)
decreasing_by
  rcases h1.2 with heq | hlt
  · rcases Nat.lt_or_eq_of_le p.wrapped with hl | he
    · exact Prod.Lex.left _ _ hl
    · rw [← he]
      refine Prod.Lex.right _ ?_
      subst heq
      suffices hL : (s5.props (some j)).length = (s1.props (some j)).length by omega
      have hj : j < s1.pmaps.length := by
        rcases Nat.lt_or_ge j s1.pmaps.length with h | h
        · exact h
        · simp [St.props, List.getElem?_eq_none h] at hlen
      have h4 : s4.props (some j) = s1.props (some j) := by
        cases e2; cases e3
        simp only [St.props, List.getElem?_append_left hj]
      rw [← h4]
      have hkey : kp.1 ∈ (s4.props (some j)).map (·.1) := by
        rw [h4]
        exact List.mem_map_of_mem (List.mem_of_getElem? hk)
      cases hf : b.facetDefs with
      | none => rw [hf] at e5; cases e5; rfl
      | some i' =>
        rw [hf] at e5
        cases e5
        simp only [St.props, List.getElem?_modify] at hkey ⊢
        cases hx : s4.pmaps[j]? with
        | none => simp
        | some o =>
          rw [hx] at hkey
          by_cases he' : i' = j
          · simpa [he'] using oset_length hkey
          · simp [he']
  · exact Prod.Lex.left _ _ (Nat.lt_of_le_of_lt (p2.trans (p3.trans p5)).wrapped hlt)

/-- Without unions unwrapping comes to an end. -/
theorem unwrap_halts (hD : D.Fair) : ∀ (w : Nat), Rec D w
  | 0, _, _, h, _ => absurd h (Nat.not_lt_zero _)
  | w + 1, s, i, hw, a => by
    refine Halts.steps (m := fun n _ => unwrap n a) ?_
    show Halts _ (fun n _ => unwrap (n + 1) a) s
    unfold unwrap
    refine .bind (P := fun s' => s' = s ∧ Inv D s') ?_ (fun s' h => ?_) fun b s1 _ ⟨N, e⟩ => ?_
    · refine .const ?_ ⟨?_, ?_⟩ <;> unfold Heap.getBase <;> split <;> simp [i]
    · obtain ⟨rfl, h⟩ := h
      exact ⟨⟨h, .refl _⟩, .inl rfl⟩
    obtain ⟨rfl, hb⟩ := getBase_ok (e N N (Nat.le_refl _) (Nat.le_refl _))
    cases hs : b.shape with
    | none => exact .const (by simp [M.err]) ⟨⟨i, .refl _⟩, .inl rfl⟩
    | some q =>
      by_cases hun : b.unwrapped = true
      · exact .congr (.const (m := M.ret a) (by simp [M.ret]) ⟨⟨i, .refl _⟩, .inl rfl⟩) fun n l => by simp only [hun, if_true]
      have hun : b.unwrapped = false := by simpa using hun
      refine .congr (m := fun n _ => M.bind (Heap.updBase a fun y => { y with unwrapped := true }) fun _ =>
        match b.alias with
        | some t => M.bind (unwrap n t) fun us => M.bind (Heap.putShape a) fun _ => aliasTo a us
        | none => M.bind (unwrapParents (unwrap n) n a) fun source => M.bind (unwrapTarget (unwrap n) n a) fun _ => M.bind (Heap.getBase a) fun b' =>
          M.bind (whenSome b'.facetDefs fun i => unwrapFacetDefs (unwrap n) a i n 0) fun _ => unwrapFinish n a source) ?_ fun n l => by simp [hun]; rfl
      have hr := unwrap_halts hD w
      have hu : Runs D s1 (Heap.updBase a fun y => { y with unwrapped := true }) s1 := .upd i fun y hy => i.fit hy rfl rfl (fun _ => rfl) id
      have hlt : wrapped (Heap.updBase a (fun y => { y with unwrapped := true }) s1).2 < wrapped s1 :=
        hu.2.2.wrapped_lt (x := a) (b := b) (b' := { b with unwrapped := true }) hb (by
          show ({ s1 with bases := s1.bases.modify a _ } : St).base a = _
          rw [base_modify, hb]; simp) hun rfl
      generalize hfin : (fun s' => After D s1 s' ∧ wrapped s' < wrapped s1) = P
      refine .mono (P := P) ?_ fun s' h => by subst hfin; exact ⟨h.1, .inr h.2⟩
      have key : ∀ s2, Inv D s2 → Step s1 s2 → wrapped s2 < wrapped s1 → ∀ s', After D s2 s' → P s' := fun s2 _ p k s' h => by
        subst hfin
        exact ⟨h.later p, Nat.lt_of_le_of_lt h.2.wrapped k⟩
      refine .bind (P := fun s' => After D s1 s' ∧ wrapped s' < wrapped s1) (.const hu.1 ⟨hu.2, hlt⟩) (fun s' h => by subst hfin; exact h) fun _ s2 ⟨⟨i2, p2⟩, k2⟩ _ => ?_
      refine .mono ?_ (key s2 i2 p2 k2)
      have hw2 : wrapped s2 < w := by omega
      cases ha : b.alias with
      | some t =>
        refine .bind (hr s2 i2 hw2 t) (fun _ h => h.1) fun us s3 h3 _ => ?_
        refine .first (putShape_runs h3.1.1) (fun _ h => h.later h3.1.2) fun _ s4 _ i4 p4 => ?_
        exact (aliasTo_runs i4).halts.mono fun _ h => h.later (h3.1.2.trans p4)
      | none =>
        refine .bind (unwrapParents_halts hr i2 hw2) (fun _ h => h) fun source s3 h3 _ => ?_
        refine .bind (unwrapTarget_halts hr h3.1 (Nat.lt_of_le_of_lt h3.2.wrapped hw2)) (fun _ h => h.later h3.2) fun _ s4 h4 _ => ?_
        have q4 := h3.2.trans h4.2
        refine .first (.getBase h4.1) (fun _ h => h.later q4) fun b' s5 e _ _ => ?_
        obtain ⟨rfl, hb'⟩ := getBase_ok e
        refine .bind (P := After D s2) ?_ (fun _ h => h) fun _ s6 h6 _ => ?_
        · cases hf : b'.facetDefs with
          | none => exact .const (by simp [whenSome, M.ret]) ⟨h4.1, q4⟩
          | some j =>
            rcases hD with hD | hD
            · refine ⟨1, (.ok (), s5), fun n l hn hl => ?_, by simp, h4.1, q4⟩
              obtain ⟨n, rfl⟩ : ∃ k, n = k + 1 := ⟨n - 1, by omega⟩
              have := h4.1.none j (hD j (h4.1.defs a b' j hb' hf))
              simp only [whenSome, unwrapFacetDefs, this, List.getElem?_nil]
            · exact (unwrapFacetDefs_halts hr hD a j s5 0 h4.1 (Nat.lt_of_le_of_lt q4.wrapped hw2)).diag.mono fun _ h => h.later q4
        · exact (unwrapFinish_halts h6.1).mono fun _ h => h.later h6.2
end

end GoRaml.Stops
