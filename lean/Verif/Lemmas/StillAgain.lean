import Verif.Lemmas.Still

/-!
# Marking again what has been marked
-/

namespace GoRaml.Still

open GoRaml GoRaml.Spec GoRaml.Load GoRaml.Whole

/-- A base without its flag. -/
def plain (b : Base) : Base := { b with visited := false }

/-- The same heap up to flags. -/
structure Like (h g : St) : Prop where
  rest : g = { h with bases := g.bases }
  bases : ∀ x, (g.base x).map plain = (h.base x).map plain

theorem Like.refl (h : St) : Like h h := ⟨rfl, fun _ => rfl⟩

theorem Like.base {h g : St} (l : Like h g) {x : Addr} {b : Base} (hb : h.base x = some b) : ∃ v, g.base x = some { b with visited := v } := by
  have := l.bases x
  rw [hb] at this
  obtain ⟨c, h1, h2⟩ := Option.map_eq_some_iff.1 this
  refine ⟨c.visited, ?_⟩
  rw [h1]
  cases b; cases c
  simp only [plain, Base.mk.injEq] at h2 ⊢
  simp_all

theorem Like.flag {h g : St} (l : Like h g) (a : Addr) (v : Bool) : Like h { g with bases := g.bases.modify a fun x => { x with visited := v } } := by
  refine ⟨by show _ = _; rw [l.rest], fun x => ?_⟩
  rw [← l.bases x, GoRaml.base_upd]
  cases g.base x with
  | none => rfl
  | some b => simp only [Option.map_some]; split <;> rfl

theorem Like.props {h g : St} (l : Like h g) (i : Option Nat) : g.props i = h.props i := by rw [l.rest]; rfl
theorem Like.patProps {h g : St} (l : Like h g) (i : Option Nat) : g.patProps i = h.patProps i := by rw [l.rest]; rfl
theorem Like.slice {h g : St} (l : Like h g) (i : Option Nat) : g.slice i = h.slice i := by rw [l.rest]; rfl

/-- Setting and clearing a flag that is not set. -/
theorem flag_back {g : St} {a : Addr} {b : Base} (hb : g.base a = some b) (hv : b.visited = false) :
    ({ g with bases := (g.bases.modify a fun x => { x with visited := true }).modify a fun x => { x with visited := false } } : St) = g := by
  have : ((g.bases.modify a fun x => { x with visited := true }).modify a fun x => { x with visited := false }) = g.bases := by
    apply List.ext_getElem?
    intro x
    rw [List.getElem?_modify, List.getElem?_modify]
    by_cases hax : a = x
    · subst hax
      have hb : g.bases[a]? = some b := hb
      rw [hb]
      cases b
      simp_all
    · cases g.bases[x]? <;> simp [hax]
  rw [this]

theorem forEach_same {α σ : Type} {f : α → M σ Unit} {s : σ} : ∀ {l : List α}, (∀ x ∈ l, f x s = (.ok (), s)) → M.forEach f l s = (.ok (), s)
  | [], _ => rfl
  | x :: l, h => by
    unfold M.forEach
    rw [M.bind_of_ok (h x (by simp))]
    exact forEach_same fun y hy => h y (by simp [hy])

theorem whenSome_none {α σ : Type} {f : α → M σ Unit} (s : σ) : whenSome none f s = (.ok (), s) := rfl

section
variable {rec : Addr → M St (Option Addr)} {g : St}

theorem markProps_same {i : Nat} (h : ∀ p ∈ g.props (some i), rec p.2.base g = (.ok none, g)) : markProps rec i g = (.ok (), g) := by
  refine forEach_same fun k _ => ?_
  unfold markProp
  cases hk : (g.props (some i))[k]? with
  | none => rfl
  | some kp =>
    show M.bind (rec kp.2.base) _ g = _
    rw [M.bind_of_ok (h kp (List.mem_of_getElem? hk))]
    rfl

theorem markPatProps_same {i : Nat} (h : ∀ p ∈ g.patProps (some i), rec p.2.base g = (.ok none, g)) : markPatProps rec i g = (.ok (), g) := by
  refine forEach_same fun k _ => ?_
  unfold markPatProp
  cases hk : (g.patProps (some i))[k]? with
  | none => rfl
  | some kp =>
    show M.bind (rec kp.2.base) _ g = _
    rw [M.bind_of_ok (h kp (List.mem_of_getElem? hk))]
    rfl

theorem markMembers_same {i : Nat} (h : ∀ p ∈ g.slice (some i), rec p g = (.ok none, g)) : markMembers rec i g = (.ok (), g) := by
  refine forEach_same fun k _ => ?_
  unfold markMember
  cases hk : (g.slice (some i))[k]? with
  | none => rfl
  | some kp =>
    show M.bind (rec kp) _ g = _
    rw [M.bind_of_ok (h kp (List.mem_of_getElem? hk))]
    rfl

theorem markShape_same {h : St} (l : Like h g) {a : Addr} {b : Base} (hb : h.base a = some b) (hr : ∀ y, MarkEdge h a y → rec y g = (.ok none, g)) :
    markShape rec a b.shape g = (.ok (), g) := by
  have hs : h.shapeAt a = b.shape := by simp [St.shapeAt, hb]
  cases hq : b.shape with
  | none => rfl
  | some q =>
    rw [hq] at hs
    cases q
    case array f =>
      simp only [markShape]
      cases hi : f.items with
      | none => rfl
      | some i =>
        simp only [whenSome]
        rw [M.bind_of_ok (hr i (.refers ⟨_, hs, .items hi⟩))]
        rfl
    case object f =>
      simp only [markShape]
      have h1 : whenSome f.properties (fun i => markProps rec i) g = (.ok (), g) := by
        cases hp : f.properties with
        | none => rfl
        | some i => exact markProps_same fun p hp' => hr _ (.refers ⟨_, hs, .property (by rw [hp]; rw [l.props] at hp'; exact hp')⟩)
      rw [M.bind_of_ok h1]
      cases hp : f.patternProperties with
      | none => rfl
      | some i => exact markPatProps_same fun p hp' => hr _ (.refers ⟨_, hs, .pattern (by rw [hp]; rw [l.patProps] at hp'; exact hp')⟩)
    case union o e =>
      simp only [markShape]
      cases o with
      | none => rfl
      | some i => exact markMembers_same fun p hp' => hr _ (.refers ⟨_, hs, .member (by rw [l.slice] at hp'; exact hp')⟩)
    all_goals rfl

end

/-- A bound that works for every type that is there. -/
theorem bound_all {P : Addr → Nat → Prop} (hm : ∀ y m n, m ≤ n → P y m → P y n) : ∀ L : Nat, (∀ y, y < L → ∃ N, P y N) → ∃ N, ∀ y, y < L → P y N
  | 0, _ => ⟨0, fun y hy => by cases hy⟩
  | L + 1, h => by
    obtain ⟨N, hN⟩ := bound_all hm L fun y hy => h y (by omega)
    obtain ⟨M, hM⟩ := h L (by omega)
    refine ⟨max N M, fun y hy => ?_⟩
    by_cases hL : y = L
    · subst hL; exact hm _ _ _ (Nat.le_max_right _ _) hM
    · exact hm _ _ _ (Nat.le_max_left _ _) (hN y (by omega))

/-- No type of it is visited. -/
def Free (h g : St) (a : Addr) : Prop := ∀ y, Relation.ReflTransGen (MarkEdge h) a y → visitedAt g y ≠ some true

theorem Calm.free {h : St} {a : Addr} (c : Calm h a) : Free h h a := by
  induction c with
  | @intro x b hb hu hv _ ih =>
    intro y hy
    rcases Relation.ReflTransGen.cases_head hy with rfl | ⟨z, h1, h2⟩
    · simp [visitedAt, hb, hv]
    · exact ih z h1 y h2

theorem Calm.acyclic {h : St} {a : Addr} (c : Calm h a) : ¬ Relation.TransGen (MarkEdge h) a a := by
  have key : Acc (fun y x => MarkEdge h x y) a := by
    induction c with
    | @intro x b _ _ _ _ ih => exact ⟨x, fun y hy => ih y hy⟩
  intro ht
  have hs : Relation.TransGen (fun y x => MarkEdge h x y) a a := Relation.transGen_swap.2 ht
  have hk := key.transGen
  clear c key ht
  induction hk with
  | intro a _ ih => exact ih a hs hs

/-- Marking such a type changes nothing, whatever else is visited. -/
theorem mark_like {h : St} {a : Addr} (c : Calm h a) : ∃ N, ∀ n, N ≤ n → ∀ g, Like h g → Free h g a → mark n a g = (.ok none, g) := by
  have c0 := c
  induction c with
  | @intro x b hb hu hv hc ih =>
    obtain ⟨N, hN⟩ := bound_all (P := fun y N => MarkEdge h x y → ∀ n, N ≤ n → ∀ g, Like h g → Free h g y → mark n y g = (.ok none, g))
      (fun y m n hmn hp he k hk => hp he k (Nat.le_trans hmn hk)) h.bases.length fun y _ => by
        by_cases he : MarkEdge h x y
        · obtain ⟨N, hN⟩ := ih y he (hc y he)
          exact ⟨N, fun _ => hN⟩
        · exact ⟨0, fun h => absurd h he⟩
    refine ⟨N + 1, fun n hn g l f => ?_⟩
    obtain ⟨n, rfl⟩ : ∃ k, n = k + 1 := ⟨n - 1, by omega⟩
    have hn : N ≤ n := by omega
    obtain ⟨v, hg⟩ := l.base hb
    have hv0 : v = false := by
      cases v with
      | false => rfl
      | true => exact absurd (by simp [visitedAt, hg]) (f x .refl)
    subst hv0
    have there : ∀ y, MarkEdge h x y → y < h.bases.length := fun y hy => by
      cases hc y hy with
      | intro hy _ _ _ => exact (List.getElem?_eq_some_iff.1 hy).1
    unfold mark
    rw [M.bind_of_ok (show Heap.getBase x g = (.ok { b with visited := false }, g) by simp [Heap.getBase, hg])]
    simp only [hu, Bool.not_true, Bool.false_eq_true, if_false]
    rw [M.bind_of_ok (upd_run _ _ _)]
    have l1 := l.flag x true
    have e1 : markShape (mark n) x b.shape { g with bases := g.bases.modify x fun x => { x with visited := true } } = (.ok (), _) :=
      markShape_same l1 hb fun y hy => hN y (there y hy) hy n hn _ l1 fun z hz => by
        have hzx : ¬ x = z := fun e => by
          subst e
          exact c0.acyclic (Relation.TransGen.head' hy hz)
        have hfz := f z (.head hy hz)
        unfold visitedAt at hfz ⊢
        rw [GoRaml.base_upd]
        cases hbz : g.base z with
        | none => simp
        | some c => rw [hbz] at hfz; simpa [hzx] using hfz
    rw [M.bind_of_ok e1, M.bind_of_ok (upd_run _ _ _)]
    have e2 : whenSome b.facetDefs (fun i => markProps (mark n) i) g = (.ok (), g) := by
      cases hp : b.facetDefs with
      | none => rfl
      | some i =>
        refine markProps_same fun p hp' => ?_
        have he : MarkEdge h x p.2.base := .facet hb (by rw [hp]; rw [l.props] at hp'; exact hp')
        exact hN _ (there _ he) he n hn g l fun z hz => f z (.head he hz)
    refine Eq.trans (congrArg _ (flag_back hg rfl)) ?_
    rw [M.bind_of_ok e2]
    rfl

theorem mark_calm {h : St} {a : Addr} (c : Calm h a) : ∃ N, ∀ n, N ≤ n → mark n a h = (.ok none, h) := by
  obtain ⟨N, hN⟩ := mark_like c
  exact ⟨N, fun n hn => hN n hn h (.refl h) c.free⟩

end GoRaml.Still
