import Verif.Lemmas.HaltResolve
import Verif.Lemmas.Files
import Verif.Spec.Ends
import Mathlib.Data.Multiset.DershowitzManna

/-!
# Parsing ends
-/

namespace GoRaml.Halt

open GoRaml GoRaml.Spec GoRaml.Load

/-! ## A measure -/

section
variable {E : Env} {Pl : Plan E} {s s' : St}

open Classical in
/-- The types that are left to resolve. -/
noncomputable def unks (s : St) : Finset Addr := (Finset.range s.bases.length).filter fun x => ∃ b, UnkAt s x b

open Classical in
theorem mem_unks {x : Addr} : x ∈ unks s ↔ ∃ b, UnkAt s x b := by
  unfold unks
  rw [Finset.mem_filter, Finset.mem_range]
  exact ⟨fun h => h.2, fun ⟨b, h⟩ => ⟨(List.getElem?_eq_some_iff.1 h.1).1, b, h⟩⟩

/-- The weight of the type at an address. -/
def wtAt (Pl : Plan E) (s : St) (x : Addr) : Nat := ((s.base x).map Pl.wt).getD 0

theorem wtAt_eq {x : Addr} {b : Base} (h : s.base x = some b) : wtAt Pl s x = Pl.wt b := by simp [wtAt, h]

/-- The weights of the types that are left to resolve. -/
noncomputable def weights (Pl : Plan E) (s : St) : Multiset Nat := (unks s).val.map (wtAt Pl s)

open Classical in
theorem Drops.lt (h : Drops Pl s s') : Pl.left s' < Pl.left s ∨ Pl.left s' = Pl.left s ∧ Multiset.IsDershowitzMannaLT (weights Pl s') (weights Pl s) := by
  by_cases hl : Pl.left s' < Pl.left s
  · exact .inl hl
  have hle := h.res.left
  refine .inr ⟨by omega, ?_⟩
  have hfresh := h.res.fresh.resolve_left hl
  obtain ⟨z, bz, hz, hm⟩ := h.some.resolve_left hl
  have hmade : ∀ {x}, MadeAt s' x → x ∉ unks s' := fun hm hx => by
    obtain ⟨b, hb, hu⟩ := mem_unks.1 hx
    exact (hm.of hb).not_unk hu
  refine ⟨((unks s).val.filter (· ∈ unks s')).map (wtAt Pl s), ((unks s').val.filter (¬ · ∈ unks s)).map (wtAt Pl s'), ((unks s).val.filter (¬ · ∈ unks s')).map (wtAt Pl s), ?_, ?_, ?_, ?_⟩
  · intro h0
    have : wtAt Pl s z ∈ ((unks s).val.filter (¬ · ∈ unks s')).map (wtAt Pl s) :=
      Multiset.mem_map_of_mem _ (Multiset.mem_filter.2 ⟨mem_unks.2 ⟨bz, hz⟩, hmade hm⟩)
    rw [h0] at this
    exact absurd this (Multiset.notMem_zero _)
  · have h1 : (unks s').val.filter (· ∈ unks s) = (unks s).val.filter (· ∈ unks s') := by
      have : (unks s').filter (· ∈ unks s) = (unks s).filter (· ∈ unks s') := by
        ext x; simp only [Finset.mem_filter]; exact And.comm
      exact congrArg Finset.val this
    have h2 : ((unks s).val.filter (· ∈ unks s')).map (wtAt Pl s') = ((unks s).val.filter (· ∈ unks s')).map (wtAt Pl s) := by
      refine Multiset.map_congr rfl fun x hx => ?_
      rw [Multiset.mem_filter] at hx
      obtain ⟨b, hb, hu⟩ := mem_unks.1 (show x ∈ unks s from hx.1)
      obtain ⟨b', hb', hu'⟩ := mem_unks.1 hx.2
      obtain ⟨b2, h3, _, _, h4⟩ := h.res.old x b hb
      rw [hb'] at h3; cases h3
      rw [wtAt_eq hb, wtAt_eq hb']
      rcases h4 hu with h5 | h5
      · exact h5.2
      · exact absurd hu' h5.not_unk
    rw [← h2, ← h1, ← Multiset.map_add, Multiset.filter_add_not]
    rfl
  · rw [← Multiset.map_add, Multiset.filter_add_not]
    rfl
  · intro y hy
    obtain ⟨x, hx, rfl⟩ := Multiset.mem_map.1 hy
    rw [Multiset.mem_filter] at hx
    obtain ⟨b', hb', hu'⟩ := mem_unks.1 (show x ∈ unks s' from hx.1)
    rcases hfresh x b' hb' hu' with ⟨b, hb, hu, _⟩ | h1 | ⟨w, bw, h1, h2, h3⟩
    · exact absurd (mem_unks.2 ⟨b, hb, hu⟩) hx.2
    · exact absurd h1 (Nat.not_lt_zero _)
    · refine ⟨wtAt Pl s w, Multiset.mem_map_of_mem _ (Multiset.mem_filter.2 ⟨mem_unks.2 ⟨bw, h1⟩, hmade h2⟩), ?_⟩
      rw [wtAt_eq hb', wtAt_eq h1.1]
      exact h3

/-- The measure of a state. -/
noncomputable def meas (Pl : Plan E) (s : St) : Nat × Multiset Nat × Nat := (Pl.left s, weights Pl s, s.unresolved.length)

/-- The order of the measures. -/
def Before : Nat × Multiset Nat × Nat → Nat × Multiset Nat × Nat → Prop := Prod.Lex (· < ·) (Prod.Lex Multiset.IsDershowitzMannaLT (· < ·))

theorem before_wf : WellFounded Before := WellFounded.prod_lex Nat.lt_wfRel.wf (WellFounded.prod_lex Multiset.wellFounded_isDershowitzMannaLT Nat.lt_wfRel.wf)

theorem Drops.before (h : Drops Pl s s') : Before (meas Pl s') (meas Pl s) := by
  unfold meas Before
  rcases h.lt with h1 | ⟨h1, h2⟩
  · exact Prod.Lex.left _ _ h1
  · rw [h1]
    exact Prod.Lex.right _ (Prod.Lex.left _ _ h2)

end

/-! ## Runs with more and more fuel -/

section
variable {E : Env}

/-- Resolving the type in this state runs out of fuel, however much there is. -/
def Never (E : Env) (x : Addr) (t : St) : Prop := ∀ n, (resolveShape E n x t).1 = .diverge

open Classical in
/-- The nested calls, with the call for `x` in state `t` interrupted. -/
noncomputable def stopAt (E : Env) (x : Addr) (t : St) (n : Nat) (y : Addr) : M St Unit := fun u => if y = x ∧ u = t then (.panic "interrupted", u) else resolveShape E n y u

theorem stopAt_same {x : Addr} {t : St} {n : Nat} : stopAt E x t n x t = (.panic "interrupted", t) := by unfold stopAt; rw [if_pos ⟨rfl, rfl⟩]

theorem stopAt_other {x y : Addr} {t u : St} {n : Nat} (h : ¬ (y = x ∧ u = t)) : stopAt E x t n y u = resolveShape E n y u := by unfold stopAt; rw [if_neg h]

theorem resolveShape_mono {n n' : Nat} (h : n ≤ n') {x : Addr} {t : St} (hd : (resolveShape E n x t).1 ≠ .diverge) : resolveShape E n' x t = resolveShape E n x t :=
  Files.resolveShape_sim (mode := false) (E := E) (f := E.file) (fun _ => Files.Le.rfl) n n' h x t hd

theorem makeConcrete_mono {n n' : Nat} (h : n ≤ n') {a : Addr} {ty : String} {fs : Option (List YNode)} {t : St} (hd : (makeConcrete E (calls E n) a ty fs t).1 ≠ .diverge) :
    makeConcrete E (calls E n') a ty fs t = makeConcrete E (calls E n) a ty fs t :=
  Files.makeConcrete_sim (mode := false) (E := E) (f := E.file) (fun _ => Files.Le.rfl) (Files.calls_sim (fun _ => Files.Le.rfl) n n' h) a ty fs t hd

theorem makeNewShape_mono {n n' : Nat} (h : n ≤ n') {name ty loc : String} {t : St} (hd : (makeNewShape E (calls E n) name ty loc t).1 ≠ .diverge) :
    makeNewShape E (calls E n') name ty loc t = makeNewShape E (calls E n) name ty loc t :=
  Files.makeNewShape_sim (mode := false) (E := E) (f := E.file) (fun _ => Files.Le.rfl) (Files.calls_sim (fun _ => Files.Le.rfl) n n' h) name ty loc t hd

variable {α β : Type} {P : Addr → St → Prop} {s : St}

/-- With enough fuel, the run of `F` ends; or it comes to a nested call that never ends, and `P` holds of the call. -/
def Goes (E : Env) (P : Addr → St → Prop) (F : (Addr → M St Unit) → Nat → M St α) (s : St) : Prop :=
  (∃ N o, o.1 ≠ .diverge ∧ ∀ n, N ≤ n → F (resolveShape E n) n s = o ∧ ∀ x t, Never E x t → F (stopAt E x t n) n s = o) ∨
  (∃ N x t, Never E x t ∧ P x t ∧ ∀ n, N ≤ n → F (stopAt E x t n) n s = (.panic "interrupted", t))

theorem Goes.bind {F : (Addr → M St Unit) → Nat → M St α} {G : (Addr → M St Unit) → Nat → α → M St β} {Q : α → St → Prop} {L : St → Prop} (h : Goes E P F s)
    (hY : ∀ n, Yields (F (resolveShape E n) n) s Q L) (hG : ∀ x s', Q x s' → Goes E P (fun rec n => G rec n x) s') : Goes E P (fun rec n => M.bind (F rec n) (G rec n)) s := by
  rcases h with ⟨N, ⟨o, t⟩, ho, h⟩ | ⟨N, x, t, hx, hp, h⟩
  · have hN := hY N
    unfold Yields at hN
    rw [(h N (Nat.le_refl _)).1] at hN
    cases o with
    | ok v =>
      rcases hG v t hN with ⟨N', o', ho', h'⟩ | ⟨N', x, u, hx, hp, h'⟩
      · refine .inl ⟨max N N', o', ho', fun n hn => ⟨?_, fun x u hx => ?_⟩⟩
        · show M.bind _ _ s = _
          unfold M.bind
          rw [(h n (by omega)).1]
          exact (h' n (by omega)).1
        · show M.bind _ _ s = _
          unfold M.bind
          rw [(h n (by omega)).2 x u hx]
          exact (h' n (by omega)).2 x u hx
      · refine .inr ⟨max N N', x, u, hx, hp, fun n hn => ?_⟩
        show M.bind _ _ s = _
        unfold M.bind
        rw [(h n (by omega)).2 x u hx]
        exact h' n (by omega)
    | err e =>
      refine .inl ⟨N, (.err e, t), by simp, fun n hn => ⟨?_, fun x u hx => ?_⟩⟩
      · show M.bind _ _ s = _
        unfold M.bind
        rw [(h n hn).1]
      · show M.bind _ _ s = _
        unfold M.bind
        rw [(h n hn).2 x u hx]
    | panic e =>
      refine .inl ⟨N, (.panic e, t), by simp, fun n hn => ⟨?_, fun x u hx => ?_⟩⟩
      · show M.bind _ _ s = _
        unfold M.bind
        rw [(h n hn).1]
      · show M.bind _ _ s = _
        unfold M.bind
        rw [(h n hn).2 x u hx]
    | diverge => exact absurd rfl ho
  · refine .inr ⟨N, x, t, hx, hp, fun n hn => ?_⟩
    show M.bind _ _ s = _
    unfold M.bind
    rw [h n hn]

theorem Goes.of_eq {F F' : (Addr → M St Unit) → Nat → M St α} (he : ∀ rec n, F rec n s = F' rec n s) (h : Goes E P F' s) : Goes E P F s := by
  unfold Goes at h ⊢
  simp only [he]
  exact h

theorem Goes.mono {P' : Addr → St → Prop} {F : (Addr → M St Unit) → Nat → M St α} (h : Goes E P F s) (hp : ∀ x t, P x t → P' x t) : Goes E P' F s :=
  h.imp id fun ⟨N, x, t, h1, h2, h3⟩ => ⟨N, x, t, h1, hp x t h2, h3⟩

theorem Goes.pure {m : M St α} (h : (m s).1 ≠ .diverge) : Goes E P (fun _ _ => m) s := .inl ⟨0, m s, h, fun _ _ => ⟨rfl, fun _ _ _ => rfl⟩⟩

theorem Goes.grow {m : Nat → M St α} (hm : ∀ n n', n ≤ n' → (m n s).1 ≠ .diverge → m n' s = m n s) {N : Nat} (h : (m N s).1 ≠ .diverge) : Goes E P (fun _ n => m n) s :=
  .inl ⟨N, m N s, h, fun n hn => ⟨hm N n hn h, fun _ _ _ => hm N n hn h⟩⟩

/-- A nested call. -/
theorem Goes.call {x : Addr} (h : P x s) : Goes E P (fun rec _ => rec x) s := by
  by_cases hn : Never E x s
  · exact .inr ⟨0, x, s, hn, h, fun _ _ => stopAt_same⟩
  · unfold Never at hn
    rw [Classical.not_forall] at hn
    obtain ⟨N, hN⟩ := hn
    refine .inl ⟨N, resolveShape E N x s, hN, fun n hle => ⟨resolveShape_mono hle hN, fun y t hy => ?_⟩⟩
    exact (stopAt_other fun h => hN (by rw [h.1, h.2]; exact hy N)).trans (resolveShape_mono hle hN)

end

section
variable {E : Env} {Pl : Plan E} {P : Addr → St → Prop} {s s' : St} {a : Addr} {k : Nat} {facets : Option (List YNode)} {α β : Type}

theorem Run.ends {d : Prop} {ex : Addr → Prop} {m : M St α} {Q : α → St → Prop} (h : Run Pl d ex k m s Q) (hd : ¬ d) : (m s).1 ≠ .diverge := by
  unfold Run at h
  cases hm : m s with
  | mk o t =>
    rw [hm] at h
    cases o with
    | diverge => exact absurd h hd
    | _ => simp

/-- Giving a shape of a known type. -/
theorem Goes.concrete (Pl : Plan E) {t : String} {b : Base} (hb : s.base a = some b) (hf : Light Pl k b.location facets) (ht : Kind (emptyShape t) ≠ "unknown") :
    Goes E P (fun _ n => makeConcrete E (calls E n) a t facets) s := by
  refine Goes.grow (fun n n' h => makeConcrete_mono h) (N := Pl.left s * Pl.top + k) ?_
  refine (makeConcrete_run (Pl := Pl) (d := False) (ex := just a) (k := k) (U := Pl.left s) rfl (fun b' hb' => ⟨?_, fun h => absurd h ht⟩) (Nat.le_refl _)).ends id
  rw [hb] at hb'; cases hb'
  exact hf.below fun h => Nat.lt_irrefl _ h

theorem Goes.newShape (Pl : Plan E) {name t loc : String} (ht : t = "" ∨ Kind (emptyShape t) ≠ "unknown") : Goes E P (fun _ n => makeNewShape E (calls E n) name t loc) s :=
  Goes.grow (fun n n' h => makeNewShape_mono h) (N := 0) ((newShape_run (Pl := Pl) (d := False) ht).ends id)

theorem Goes.get {G : (Addr → M St Unit) → Nat → Base → M St β} (hG : ∀ b, s.base a = some b → Goes E P (fun rec n => G rec n b) s) :
    Goes E P (fun rec n => M.bind (Heap.getBase a) (G rec n)) s := by
  cases hb : s.base a with
  | some b => exact Goes.of_eq (fun rec n => by simp [M.bind, Heap.getBase, hb]) (hG b hb)
  | none => exact Goes.of_eq (F' := fun _ _ => M.panic "nil pointer dereference") (fun rec n => by simp [M.bind, Heap.getBase, hb, M.panic]) (Goes.pure (by simp [M.panic]))

theorem Goes.getRef {o : Out α} {G : (Addr → M St Unit) → Nat → α → M St β} (ho : o ≠ .diverge) (hG : ∀ x, o = .ok x → Goes E P (fun rec n => G rec n x) s) :
    Goes E P (fun rec n => M.bind (M.lift o) (G rec n)) s := by
  cases o with
  | ok x => exact Goes.of_eq (fun rec n => rfl) (hG x rfl)
  | err e => exact Goes.of_eq (F' := fun _ _ => M.err e) (fun rec n => rfl) (Goes.pure (by simp [M.err]))
  | panic e => exact Goes.of_eq (F' := fun _ _ => M.panic e) (fun rec n => rfl) (Goes.pure (by simp [M.panic]))
  | diverge => exact absurd rfl ho

theorem stopAt_good {x : Addr} {t : St} (n : Nat) : RecGood Pl (stopAt E x t n) := by
  intro y u hu
  by_cases h : y = x ∧ u = t
  · obtain ⟨rfl, rfl⟩ := h
    exact Yields.of_eq (m' := M.panic "interrupted") stopAt_same (Yields.panic .refl)
  · exact Yields.of_eq (stopAt_other h) (resolveShape_good n y u hu)

theorem appendInherits_ends {ref : Addr} : (appendInherits a ref s).1 ≠ .diverge := by
  unfold appendInherits
  split
  · simp
  · simp [M.bind, Heap.newSlice, Heap.updBase]

theorem visitReference_goes (hs : AllFair s) {b : Base} (hb : s.base a = some b) (hf : Light Pl k b.location facets) {text : String}
    (hr : ∀ ref rb, getReferenced s Lib.types text b.location = .ok ref → s.base ref = some rb → rb.id ≠ b.id → P ref s) :
    Goes E P (fun rec n => visitReference E (calls E n) rec text a facets) s := by
  unfold visitReference
  refine Goes.get fun b' hb' => ?_
  rw [hb] at hb'; cases hb'
  refine Goes.of_eq (fun rec n => rfl) (Goes.getRef (o := getReferenced s Lib.types text b.location) getReferenced_ends fun ref href => ?_)
  refine Goes.get fun rb hrb => ?_
  by_cases hid : rb.id = b.id
  · exact Goes.of_eq (F' := fun _ _ => M.err "self recursion") (fun rec n => by simp only [if_pos hid]) (Goes.pure (by simp [M.err]))
  simp only [if_neg hid]
  refine Goes.bind (Goes.call (hr ref rb href hrb hid)) (fun n => resolveShape_good (Pl := Pl) n ref s hs) fun _ s1 ⟨g1, hm⟩ => ?_
  have r1 : Res Pl k s s1 := g1.res
  obtain ⟨b1, hb1, hl1, _⟩ := r1.old a b hb
  have hf1 : Light Pl k b1.location facets := by rw [hl1]; exact hf
  refine Goes.get fun rb' hrb' => ?_
  have ht := hm.kind (r1.fair hs) hrb'
  refine Goes.bind (Goes.concrete Pl hb1 hf1 ht) (fun n => concrete_yields hb1 hf1 ht) fun _ s2 _ => Goes.pure ?_
  refine Ends.bind Ends.updBase fun _ s3 _ => ?_
  cases facets with
  | none => exact Ends.updBase
  | some l => exact appendInherits_ends

/-- Visiting an expression for a target; nested calls happen at once for the head of the expression, or after the target has got a shape. -/
def AtGoes (Pl : Plan E) (e : Rdt) : Prop :=
  ∀ (P : Addr → St → Prop) s a facets b k, AllFair s → s.base a = some b → Light Pl k b.location facets → 2 ≤ k → (∀ x t, Got Pl k a s t → P x t) →
    (∀ x y ref rb, headRef e = some (x, y) → getReferenced s Lib.types (refText x y) b.location = .ok ref → s.base ref = some rb → rb.id ≠ b.id → P ref s) →
    Goes E P (fun rec n => (visitor E (calls E n) rec e).at_ a facets) s

/-- Visiting the members of a union. -/
def MembersGo (Pl : Plan E) (e : Rdt) : Prop :=
  ∀ (P : Addr → St → Prop) s loc k, AllFair s → 2 ≤ k → (∀ x t, Res Pl k s t → P x t) → Goes E P (fun rec n => (visitor E (calls E n) rec e).members loc) s

/-- A new base for a part, which is visited. -/
theorem part_goes {e : Rdt} (h : AtGoes Pl e) (hs : AllFair s) (hk : 2 ≤ k) {loc : String} (hP : ∀ x t, Res Pl k s t → P x t) {G : (Addr → M St Unit) → Nat → Addr → M St β}
    (hG : ∀ m s', Res Pl k s s' → Goes E P (fun rec n => G rec n m) s') :
    Goes E P (fun rec n => M.bind (makeNewShape E (calls E n) "" "" loc) fun m => M.bind ((visitor E (calls E n) rec e).at_ m none) fun _ => G rec n m) s := by
  refine Goes.bind (Goes.newShape Pl (.inl rfl)) (fun n => newShape_yields (Pl := Pl) (k := k) (.inl rfl) hk) fun m s1 ⟨g1, b, hb, _⟩ => ?_
  refine Goes.bind (h P s1 m none b k (g1.fair hs) hb .none hk (fun x t ht => hP x t (g1.trans ht.2)) fun _ _ ref _ _ _ _ _ => hP ref s1 g1)
    (fun n => (visitor_good (resolveShape_good n) e).1 s1 m none b k (g1.fair hs) hb .none hk) fun _ s2 g2 => hG m s2 (g1.trans g2.2)

theorem visitor_goes : ∀ e : Rdt, AtGoes Pl e ∧ MembersGo Pl e := by
  have hlast : ∀ e : Rdt, (∀ rec n, visitor E (calls E n) rec e = Visitor.last E (calls E n) (visitor E (calls E n) rec e).at_) → AtGoes Pl e → AtGoes Pl e ∧ MembersGo Pl e := by
    intro e he h
    refine ⟨h, fun P s loc k hs hk hP => ?_⟩
    refine Goes.of_eq (F' := fun rec n => M.bind (makeNewShape E (calls E n) "" "" loc) fun m => M.bind ((visitor E (calls E n) rec e).at_ m none) fun _ => M.ret [m]) (fun rec n => ?_) ?_
    · show (visitor E (calls E n) rec e).members loc s = _
      rw [he]
      rfl
    · exact part_goes h hs hk hP fun m s' _ => Goes.pure (by simp [M.ret])
  intro e
  induction e with
  | prim p => exact hlast _ (fun _ _ => rfl) fun P s a facets b k hs hb hf hk hP hh => Goes.concrete Pl (k := k) hb .none (by cases p <;> decide +kernel)
  | ref x y => exact hlast _ (fun _ _ => rfl) fun P s a facets b k hs hb hf hk hP hh => visitReference_goes hs hb hf fun ref rb => hh x y ref rb rfl
  | group e ih => exact hlast _ (fun _ _ => rfl) fun P s a facets b k hs hb hf hk hP hh => ih.1 P s a facets b k hs hb hf hk hP hh
  | optional e ih =>
    refine hlast _ (fun _ _ => rfl) fun P s a facets b k hs hb hf hk hP hh => ?_
    show Goes E P (fun rec n => visitOptional E (calls E n) (visitor E (calls E n) rec e) a facets) s
    unfold visitOptional
    refine Goes.get fun b' _ => ?_
    refine Goes.bind (Goes.concrete Pl hb hf (by decide +kernel)) (fun n => concrete_yields hb hf (by decide +kernel)) fun _ s1 g1 => ?_
    have g1 : Got Pl k a s s1 := g1
    refine part_goes ih.1 (g1.2.fair hs) hk (fun x t ht => hP x t (g1.then ht)) fun m s2 g2 => ?_
    exact Goes.bind (Goes.newShape Pl (.inr (by decide +kernel))) (fun n => newShape_yields (Pl := Pl) (k := k) (.inr (by decide +kernel)) hk) fun m' s3 _ => Goes.pure setAnyOf_ends
  | array e ih =>
    refine hlast _ (fun _ _ => rfl) fun P s a facets b k hs hb hf hk hP hh => ?_
    show Goes E P (fun rec n => visitArray E (calls E n) (visitor E (calls E n) rec e) a facets) s
    unfold visitArray
    refine Goes.get fun b' _ => ?_
    refine Goes.bind (Goes.concrete Pl hb hf (by decide +kernel)) (fun n => concrete_yields hb hf (by decide +kernel)) fun _ s1 g1 => ?_
    have g1 : Got Pl k a s s1 := g1
    exact part_goes ih.1 (g1.2.fair hs) hk (fun x t ht => hP x t (g1.then ht)) fun m s2 g2 => Goes.pure (by simp [setArray, Heap.updBase])
  | union l r ihl ihr =>
    have hm : MembersGo Pl (.union l r) := by
      intro P s loc k hs hk hP
      show Goes E P (fun rec n => M.bind (makeNewShape E (calls E n) "" "" loc) fun m => M.bind ((visitor E (calls E n) rec l).at_ m none) fun _ =>
        M.bind ((visitor E (calls E n) rec r).members loc) fun ms => M.ret (m :: ms)) s
      refine part_goes ihl.1 hs hk hP fun m s1 g1 => ?_
      exact Goes.bind (ihr.2 P s1 loc k (g1.fair hs) hk fun x t ht => hP x t (g1.trans ht)) (fun n => (visitor_good (resolveShape_good (Pl := Pl) n) r).2 s1 loc k (g1.fair hs) hk)
        fun ms s2 _ => Goes.pure (by simp [M.ret])
    refine ⟨fun P s a facets b k hs hb hf hk hP hh => ?_, hm⟩
    show Goes E P (fun rec n => visitUnion E (calls E n) (visitor E (calls E n) rec (.union l r)).members a facets) s
    unfold visitUnion
    refine Goes.get fun b' _ => ?_
    refine Goes.bind (Goes.concrete Pl hb hf (by decide +kernel)) (fun n => concrete_yields hb hf (by decide +kernel)) fun _ s1 g1 => ?_
    have g1 : Got Pl k a s s1 := g1
    refine Goes.bind (hm P s1 b'.location k (g1.2.fair hs) hk fun x t ht => hP x t (g1.then ht))
      (fun n => (visitor_good (resolveShape_good (Pl := Pl) n) (.union l r)).2 s1 b'.location k (g1.2.fair hs) hk) fun ms s2 _ => Goes.pure setAnyOf_ends

theorem forEach_goes : ∀ (l : List Addr) {s : St}, AllFair s → (∀ x ∈ l, ∀ t, Stays Pl s t → P x t) → Goes E P (fun rec _ => M.forEach rec l) s
  | [], s, _, _ => Goes.pure (by simp [M.forEach, M.ret])
  | x :: l, s, hs, hP => by
    unfold M.forEach
    refine Goes.bind (Goes.call (hP x (by simp) s .refl)) (fun n => resolveShape_good (Pl := Pl) n x s hs) fun _ s1 ⟨g1, _⟩ => ?_
    exact forEach_goes l ((g1.res (k := 0)).fair hs) fun y hy t ht => hP y (by simp [hy]) t (g1.trans ht)

/-- Giving the target the type of another base. -/
theorem like_goes {i : Addr} {b : Base} (hs : AllFair s) (hi : MadeAt s i) (hb : s.base a = some b) (hf : Light Pl k b.location facets) :
    Goes E P (fun _ n => M.bind (Heap.getBase i) fun ib => makeConcrete E (calls E n) a ib.type facets) s :=
  Goes.get fun _ hib => Goes.concrete Pl hb hf (hi.kind hs hib)

/-- Resolving a type ends, or comes to a nested call that does not, after something has been done, or for a type that is needed. -/
theorem resolveStep_goes (Pl : Plan E) (hs : AllFair s) : Goes E (fun x t => Drops Pl s t ∨ t = s ∧ Needs s a x) (fun rec n => resolveStep E (calls E n) rec a) s := by
  unfold resolveStep
  refine Goes.get fun b hb => ?_
  cases hsh : b.shape with
  | none => exact Goes.pure (by simp [M.err])
  | some sh =>
    cases sh with
    | unknown facets =>
      have hu : UnkAt s a b := ⟨hb, facets, hsh⟩
      have hwt : Light Pl (Pl.wt b) b.location facets := by
        unfold Light Plan.wt; rw [hsh]; simp only; omega
      have hstay : ∀ {x t}, Stays Pl s t → Needs s a x → Drops Pl s t ∨ t = s ∧ Needs s a x := fun h hn => h.elim (fun e => .inr ⟨e, hn⟩) .inl
      cases hl : b.link with
      | some dt =>
        simp only
        cases hd : (s.dts[dt]?).bind (·.shape) with
        | none => exact Goes.of_eq (F' := fun _ _ => M.panic "nil pointer dereference") (fun _ _ => by simp [resolveLink, hd, M.panic]) (Goes.pure (by simp [M.panic]))
        | some l =>
          refine Goes.of_eq (F' := fun rec n => M.bind (rec l) fun _ => M.bind (Heap.getBase l) fun lb => makeConcrete E (calls E n) a lb.type facets) (fun _ _ => by simp [resolveLink, hd]) ?_
          refine Goes.bind (Goes.call (hstay .refl ⟨b, facets, hb, hsh, .inl ⟨dt, hl, hd⟩⟩)) (fun n => resolveShape_good (Pl := Pl) n l s hs) fun _ s1 ⟨g1, hm⟩ => ?_
          have r1 : Res Pl (Pl.wt b) s s1 := g1.res
          obtain ⟨b1, hb1, hl1, _⟩ := r1.old a b hb
          exact like_goes (r1.fair hs) hm hb1 (by rw [hl1]; exact hwt)
      | none =>
        simp only
        by_cases hc : b.type = "composite"
        · simp only [if_pos hc]
          refine Goes.of_eq (F' := fun rec n => M.bind (M.forEach rec (s.slice b.inherits)) fun _ =>
            match (s.slice b.inherits).head? with
            | none => M.panic "index out of range"
            | some i => M.bind (Heap.getBase i) fun ib => makeConcrete E (calls E n) a ib.type facets) (fun _ _ => by simp [resolveMultipleInheritance, M.bind, Heap.getBase, hb]; rfl) ?_
          refine Goes.bind (forEach_goes (Pl := Pl) _ hs fun x hx t ht => hstay ht ⟨b, facets, hb, hsh, .inr (.inl ⟨hl, hc, hx⟩)⟩)
            (fun n => forEach_good (resolveShape_good (Pl := Pl) n) _ hs) fun _ s1 ⟨g1, hm⟩ => ?_
          cases hh : (s.slice b.inherits).head? with
          | none => exact Goes.pure (by simp [M.panic])
          | some i =>
            have r1 : Res Pl (Pl.wt b) s s1 := g1.res
            obtain ⟨b1, hb1, hl1, _⟩ := r1.old a b hb
            exact like_goes (r1.fair hs) (hm i (List.mem_of_mem_head? hh)) hb1 (by rw [hl1]; exact hwt)
        · simp only [if_neg hc]
          cases hp : parseTypeExpression b.type with
          | none => exact Goes.pure (by simp [M.err])
          | some tree =>
            have ht : b.type ≠ "" := fun h => by rw [h, parse_empty] at hp; cases hp
            have h2 := wt_type (Pl := Pl) hsh ht
            refine (visitor_goes tree).1 _ s a facets b (Pl.wt b) hs hb hwt (by omega) (fun x t h => .inl (h.2.drops hu h.1 (Nat.le_refl _))) fun x y ref rb h3 h4 h5 h6 => ?_
            refine .inr ⟨rfl, b, facets, hb, hsh, .inr (.inr ⟨hl, hc, tree, x, y, hp, h3, h4, fun bx hbx => ?_⟩)⟩
            rw [h5] at hbx; cases hbx
            exact h6
    | _ => exact Goes.pure (by simp [M.ret])

end

/-! ## The whole parse -/

section
variable {E : Env} {text path : String}

theorem fair_empty : AllFair {} := fun x b h => by simp [St.base] at h

theorem fair_pop {s : St} {u : List Addr} (h : AllFair s) : AllFair { s with unresolved := u } := h

theorem nextUp_fair (Pl : Plan E) {s : St} (h : NextUp E text path s) : AllFair s := by
  induction h with
  | decoded h => exact decodeEntry_fair Pl fair_empty h
  | @resolved n a l s s' _ _ hr ih =>
    have := resolveShape_good (Pl := Pl) n a s ih
    unfold Yields at this
    rw [hr] at this
    exact fair_pop ((this.1.res (k := 0)).fair ih)
  | @failed n a l s s' e _ _ hr ih =>
    have := resolveShape_good (Pl := Pl) n a s ih
    unfold Yields at this
    rw [hr] at this
    exact fair_pop ((Stays.res (k := 0) this).fair ih)

theorem takenUp_fair (Pl : Plan E) {a : Addr} {s : St} (h : TakenUp E text path a s) : AllFair s := by
  induction h with
  | listed h _ => exact nextUp_fair Pl h
  | @asked a x s t _ hr ih =>
    obtain ⟨n, rec, h1, h2, h3⟩ := hr
    have hg : RecGood Pl rec := by
      intro y u hu
      by_cases h : y = x ∧ u = t
      · obtain ⟨rfl, rfl⟩ := h
        exact Yields.of_eq (m' := M.panic "interrupted") h2 (Yields.panic .refl)
      · exact Yields.of_eq (h1 y u h) (resolveShape_good n y u hu)
    have := resolveStep_good (n := n) hg a s ih
    unfold Yields at this
    rw [h3] at this
    exact (Stays.res (k := 0) this).fair ih

/-- Among the types that are taken up in a state and do not need themselves, "needs" has no infinite descent. -/
theorem needs_wf {s : St} (h : ∀ a, TakenUp E text path a s → ¬ Relation.TransGen (Needs s) a a) :
    WellFounded fun x a => TakenUp E text path x s ∧ TakenUp E text path a s ∧ Needs s a x := by
  let T := {x : Addr // x < s.bases.length ∧ TakenUp E text path x s}
  let r : T → T → Prop := fun q p => Relation.TransGen (Needs s) p.1 q.1
  haveI : Finite T := Finite.of_injective (fun x : T => (⟨x.1, x.2.1⟩ : Fin s.bases.length)) fun x y hxy => Subtype.ext (Fin.mk.inj hxy)
  haveI : IsTrans _ r := ⟨fun a b c h1 h2 => h2.trans h1⟩
  haveI : Std.Irrefl r := ⟨fun a h1 => h a.1 a.2.2 h1⟩
  have hwf : WellFounded r := Finite.wellFounded_of_trans_of_irrefl r
  have hlt : ∀ {a x}, Needs s a x → a < s.bases.length := fun ⟨b, _, hb, _⟩ => (List.getElem?_eq_some_iff.1 hb).1
  have hin : ∀ p : T, Acc (fun x a => TakenUp E text path x s ∧ TakenUp E text path a s ∧ Needs s a x) p.1 := fun p => by
    induction p using hwf.induction with
    | _ p ih =>
      refine ⟨_, fun q hq => ?_⟩
      by_cases hq' : q < s.bases.length
      · exact ih ⟨q, hq', hq.1⟩ (.single hq.2.2)
      · exact ⟨_, fun x hx => absurd (hlt hx.2.2) hq'⟩
  refine ⟨fun p => ?_⟩
  by_cases hp : p < s.bases.length ∧ TakenUp E text path p s
  · exact hin ⟨p, hp⟩
  · exact ⟨_, fun x hx => absurd ⟨hlt hx.2.2, hx.2.1⟩ hp⟩

variable (h : ∀ a s, TakenUp E text path a s → ¬ Relation.TransGen (Needs s) a a)
include h

/-- Resolving a type that is taken up ends. -/
theorem takenUp_ends (Pl : Plan E) : ∀ s a, TakenUp E text path a s → ¬ Never E a s := by
  intro s
  induction hm : meas Pl s using before_wf.induction generalizing s with
  | _ μ ih =>
    subst hm
    intro a
    induction a using (needs_wf (h := fun a => h a s)).induction with
    | _ a iha =>
      intro ha hn
      rcases resolveStep_goes (a := a) Pl (takenUp_fair Pl ha) with ⟨N, o, ho, h1⟩ | ⟨N, x, t, hx, hp, h1⟩
      · refine ho ?_
        rw [← (h1 N (Nat.le_refl _)).1]
        exact hn (N + 1)
      · have hask : TakenUp E text path x t := .asked ha ⟨N, stopAt E x t N, fun y u hyu => stopAt_other hyu, stopAt_same, h1 N (Nat.le_refl _)⟩
        rcases hp with hp | ⟨rfl, hp⟩
        · exact ih _ hp.before t rfl x hask hx
        · exact iha x ⟨hask, ha, hp⟩ hask hx

/-- The loop ends. -/
theorem loop_ends (Pl : Plan E) : ∀ s, NextUp E text path s → ∃ N, ∀ n m, N ≤ n → N ≤ m → ∀ good, (resolveLoop E n m good s).1 ≠ .diverge := by
  intro s
  induction hm : meas Pl s using before_wf.induction generalizing s with
  | _ μ ih =>
    subst hm
    intro hs
    cases hu : s.unresolved with
    | nil =>
      refine ⟨0, fun n m _ _ good => ?_⟩
      unfold resolveLoop
      rw [hu]
      simp only
      split <;> simp
    | cons a l =>
      have hn := takenUp_ends h Pl s a (.listed hs hu)
      unfold Never at hn
      rw [Classical.not_forall] at hn
      obtain ⟨N, hN⟩ := hn
      have hgood := resolveShape_good (Pl := Pl) N a s (nextUp_fair Pl hs)
      have hpop : ∀ s', Stays Pl s s' → Before (meas Pl { s' with unresolved := s'.unresolved.tail }) (meas Pl s) := by
        rintro s' (rfl | hd)
        · unfold meas Before
          rw [hu]
          exact Prod.Lex.right _ (Prod.Lex.right _ (by simp))
        · have hd' : Drops Pl s { s' with unresolved := s'.unresolved.tail } := ⟨⟨hd.res.frag, hd.res.old, hd.res.fresh, hd.res.fair⟩, hd.some⟩
          exact hd'.before
      have hstep : ∀ n m good, N ≤ n → resolveLoop E n (m + 1) good s =
          (M.bind (M.attempt (resolveShape E N a)) fun r => M.bind (M.modify fun h => { h with unresolved := h.unresolved.tail }) fun _ =>
            resolveLoop E n m (good && (match r with | .ok _ => true | .error _ => false))) s := by
        intro n m good hn
        conv_lhs => unfold resolveLoop
        rw [hu]
        simp only
        unfold M.bind M.attempt
        rw [resolveShape_mono hn hN]
        rfl
      unfold Yields at hgood
      cases hr : resolveShape E N a s with
      | mk o s' =>
        rw [hr] at hgood hN
        cases o with
        | ok v =>
          obtain ⟨N', hN'⟩ := ih _ (hpop s' hgood.1) _ rfl (.resolved hs hu hr)
          refine ⟨max N N' + 1, fun n m hn hm good => ?_⟩
          obtain ⟨m, rfl⟩ : ∃ m', m = m' + 1 := ⟨m - 1, by omega⟩
          rw [hstep n m good (by omega)]
          simp only [M.bind, M.attempt, hr, M.modify]
          exact hN' n m (by omega) (by omega) _
        | err e =>
          obtain ⟨N', hN'⟩ := ih _ (hpop s' hgood) _ rfl (.failed hs hu hr)
          refine ⟨max N N' + 1, fun n m hn hm good => ?_⟩
          obtain ⟨m, rfl⟩ : ∃ m', m = m' + 1 := ⟨m - 1, by omega⟩
          rw [hstep n m good (by omega)]
          simp only [M.bind, M.attempt, hr, M.modify]
          exact hN' n m (by omega) (by omega) _
        | panic e =>
          refine ⟨N + 1, fun n m hn hm good => ?_⟩
          obtain ⟨m, rfl⟩ : ∃ m', m = m' + 1 := ⟨m - 1, by omega⟩
          rw [hstep n m good (by omega)]
          simp [M.bind, M.attempt, hr]
        | diverge => exact absurd rfl hN

omit h in
theorem extLoop_ends : ∀ (l : List Nat) (good : Bool) (s : St), (resolveExtLoop l good s).1 ≠ .diverge
  | [], good, s => by
    unfold resolveExtLoop
    split <;> simp [M.ret, M.err]
  | i :: rest, good, s => by
    unfold resolveExtLoop
    have h1 : (resolveDomainExtension i s).1 ≠ .diverge := by
      unfold resolveDomainExtension
      split
      · simp
      · exact Ends.bind (Ends.lift getReferenced_ends) fun _ _ _ => by simp [Ends, M.modify]
    simp only [M.bind, M.attempt]
    cases hr : resolveDomainExtension i s with
    | mk o s' =>
      rw [hr] at h1
      cases o with
      | ok v => exact extLoop_ends rest _ _
      | err e => exact extLoop_ends rest _ _
      | panic e => simp
      | diverge => exact absurd rfl h1

/-- The parse ends. -/
theorem parse_ends (Pl : Plan E) : ∃ N, ∀ n m, N ≤ n → N ≤ m → (parseFragment E n m text path {}).1 ≠ .diverge := by
  obtain ⟨K, hK⟩ := decodeEntry_run Pl (text := text) (path := path) (s := {})
  let N0 := Pl.left {} * Pl.top + K
  have hd : ∀ n, N0 ≤ n → decodeEntry E n text path {} = decodeEntry E N0 text path {} := fun n hn =>
    Files.decodeEntry_sim (mode := false) (E := E) (f := E.file) (fun _ => Files.Le.rfl) hn text path {} ((hK N0).ends (Nat.lt_irrefl _))
  have h0 : (decodeEntry E N0 text path {}).1 ≠ .diverge := (hK N0).ends (Nat.lt_irrefl _)
  cases hr : decodeEntry E N0 text path {} with
  | mk o s =>
    rw [hr] at h0
    cases o with
    | diverge => exact absurd rfl h0
    | err e =>
      refine ⟨N0, fun n m hn _ => ?_⟩
      unfold parseFragment M.bind
      rw [hd n hn, hr]; simp
    | panic e =>
      refine ⟨N0, fun n m hn _ => ?_⟩
      unfold parseFragment M.bind
      rw [hd n hn, hr]; simp
    | ok f =>
      obtain ⟨N1, hN1⟩ := loop_ends h Pl s (.decoded hr)
      refine ⟨max N0 N1, fun n m hn hm => ?_⟩
      refine Ends.bind (m := decodeEntry E n text path) (by unfold Ends; rw [hd n (by omega), hr]; simp) fun f' s' h1 => ?_
      rw [hd n (by omega), hr] at h1
      cases h1
      exact Ends.bind (hN1 n m (by omega) (by omega) true) fun _ s2 _ => Ends.bind (extLoop_ends _ _ _) fun _ _ _ => Ends.ret

end

end GoRaml.Halt
