import Verif.Lemmas.MarkTotal
import Verif.Lemmas.MarkValid
import Verif.Lemmas.Check
import Verif.Props.Check

/-!
# C30: recursion marking

`mark n a` is `FindAndMarkRecursion(a)` cut off after `n` nested calls.  `ok none` is the result `nil, ErrNil`, which the
caller takes for "nothing to replace".
-/

namespace GoRaml.Props

open GoRaml Spec

theorem mark_start {h : St} (hv : NoneVisited h) (a : Addr) : MInv h h ∧ MPre h h a := by
  have hno : ∀ y, visitedAt h y ≠ some true := by
    intro y hy
    unfold visitedAt at hy
    cases hb : h.base y with
    | none => rw [hb] at hy; cases hy
    | some b => rw [hb] at hy; simp [hv y b hb] at hy
  exact ⟨⟨Marked.refl _ _, fun y _ => hno y⟩, Or.inr fun z hz => absurd hz (hno z)⟩

theorem mark_none {h h' : St} {a : Addr} {n : Nat} {o : Option Addr} (hv : NoneVisited h)
    (hr : mark n a h = (.ok o, h')) : o = none := by
  cases n with
  | zero => simp [mark, M.diverge] at hr
  | succ n =>
    unfold mark at hr
    obtain ⟨b, h1, e1, hr1⟩ := M.bind_ok.1 hr
    obtain ⟨hb, he1⟩ := getBase_ok.1 e1
    rw [he1] at hr1
    have hvis := hv a b hb
    by_cases hu : b.unwrapped = true
    · simp only [hu, hvis, Bool.not_true, Bool.false_eq_true, if_false] at hr1
      obtain ⟨_, _, _, hr2⟩ := M.bind_ok.1 hr1
      obtain ⟨_, _, _, hr3⟩ := M.bind_ok.1 hr2
      obtain ⟨_, _, _, hr4⟩ := M.bind_ok.1 hr3
      obtain ⟨_, _, _, hr5⟩ := M.bind_ok.1 hr4
      exact (M.ret_ok.1 hr5).1.symm
    · simp [hu, M.err] at hr1

/-- C30, first part: on any unwrapped graph of types, of any size and with any cycles, marking returns; nested calls are
at most two per type that exists. -/
theorem c30_marking_terminates {h : St} {a : Addr} (hr : ReadyToMark h a) (hv : NoneVisited h) {n : Nat}
    (hn : 2 * h.bases.length + 2 ≤ n) : ∃ h', mark n a h = (.ok none, h') := by
  obtain ⟨S, hS, hset⟩ := hr
  obtain ⟨i, p⟩ := mark_start hv a
  have hl : Left h h.bases.length := by
    refine ⟨List.range h.bases.length, by simp, fun x hx _ => List.mem_range.2 ?_⟩
    have := visited_exists hx
    cases hb : h.base x with
    | none => exact absurd hb this
    | some b => exact lt_of_get hb
  obtain ⟨o, h', he⟩ := mark_total (h0 := h) n h a h.bases.length S i p hset hS hl (fun b _ => by split <;> omega)
  exact ⟨h', by rw [he, mark_none hv he]⟩

/-- C30, second part: afterwards every path through items, properties, pattern properties and union members from the
marked type ends; nothing else has changed than that some references to types on a cycle have become recursive references to
the same type, and no traversal flag is left set. -/
theorem c30_no_infinite_path {h h' : St} {a : Addr} {n : Nat} {o : Option Addr} (hv : NoneVisited h)
    (hr : mark n a h = (.ok o, h')) :
    o = none ∧ NoInfinitePath h' a ∧ Marked (OnCycle h) h h' ∧ NoneVisited h' := by
  obtain ⟨i, p⟩ := mark_start hv a
  have ho := mark_none hv hr
  have post := mark_post n h a o h' i p hr
  refine ⟨ho, (post.good ho).noInfinitePath, post.marked, fun x b hb => ?_⟩
  have hvx : visitedAt h' x = some b.visited := by unfold visitedAt; rw [hb]; rfl
  by_contra hcon
  have ht : visitedAt h' x = some true := by rw [hvx]; simpa using hcon
  have := post.vis.true_back ht
  unfold visitedAt at this
  cases hb0 : h.base x with
  | none => rw [hb0] at this; cases this
  | some c => rw [hb0] at this; simp [hv x c hb0] at this

/-- C30, third part: marking does not change what any type means. -/
theorem c30_values_unchanged (E : Ext) {h h' : St} {a : Addr} {n : Nat} {o : Option Addr} (hc : Closed h)
    (hv : NoneVisited h) (hr : mark n a h = (.ok o, h')) {x : Addr} (hx : x < h.bases.length) (v : GoVal) :
    Valid E h' x v ↔ Valid E h x v := by
  have m := (c30_no_infinite_path hv hr).2.2.1
  refine ⟨valid_marked_back m hc ?_, valid_marked m⟩
  intro hn
  have := get_of_lt hx
  obtain ⟨b, hb⟩ := this
  rw [show h.base x = some b from hb] at hn; cases hn

/-- C30, fourth part: a graph without cycles is left as it is: every type keeps its declaration, every map and list its
entries. -/
theorem c30_acyclic_unchanged {h h' : St} {a : Addr} {n : Nat} {o : Option Addr} (hv : NoneVisited h)
    (hac : ∀ x, ¬ OnCycle h x) (hr : mark n a h = (.ok o, h')) :
    (∀ x, h'.base x = h.base x) ∧ (∀ p, h'.props p = h.props p) ∧ (∀ p, h'.patProps p = h.patProps p) ∧
      ∀ p, h'.slice p = h.slice p := by
  obtain ⟨_, _, m, hv'⟩ := c30_no_infinite_path hv hr
  have hrepl : ∀ x y, Repl (OnCycle h) h h' x y → y = x := by
    rintro x y (e | ⟨e, _⟩)
    · exact e
    · exact absurd e (hac x)
  have hlist : ∀ {α : Type} {R : α → α → Prop} (_ : ∀ x y, R x y → y = x) {l l' : List α}, List.Forall₂ R l l' → l' = l := by
    intro α R hR l l' hf
    induction hf with
    | nil => rfl
    | cons h1 _ ih => rw [hR _ _ h1, ih]
  refine ⟨fun x => ?_, fun p => hlist ?_ (m.props p), fun p => hlist ?_ (m.patProps p), fun p => hlist hrepl (m.slices p)⟩
  · cases hb : h.base x with
    | none =>
      cases hb' : h'.base x with
      | none => rfl
      | some b =>
        obtain ⟨_, _, y, hy, _⟩ := m.fresh x b hb hb'
        exact absurd hy (hac y)
    | some b =>
      obtain ⟨s, v, h1, h2⟩ := m.old x b hb
      have h3 := hv' x _ h1
      have h4 := hv x b hb
      have hs : s = b.shape := by
        generalize b.shape = bs at h2
        cases h2 with
        | same => rfl
        | items e1 e2 =>
          rw [hrepl _ _ e2]
          rename_i f i j
          cases f
          simp only at e1
          rw [e1]
      rw [h1, hs]
      simp only at h3
      rw [h3, ← h4]
  · rintro ⟨k, q⟩ ⟨k', q'⟩ ⟨e1, y, e2, e3⟩
    simp only at e1 e2 e3
    rw [e1, e2, hrepl _ _ e3]
  · rintro ⟨k, q⟩ ⟨k', q'⟩ ⟨e1, y, e2, e3⟩
    simp only at e1 e2 e3
    rw [e1, e2, hrepl _ _ e3]

/-- C30 and C22 together: after marking, the definition check of the marked type always returns a verdict, and the right one. -/
theorem c30_check_after_marking (E : Ext) {h h' : St} {a : Addr} {n : Nat} {o : Option Addr} (hc : Closed h')
    (hd : RuntimeDiscriminators h') (hv : NoneVisited h) (ha : a < h'.bases.length) (hr : mark n a h = (.ok o, h')) :
    ((∃ n, check E h' n a = .ok ()) ↔ Consistent E h' a) ∧
      ((∃ n m, check E h' n a = .err m) ↔ ¬ Consistent E h' a) :=
  c22_check_decides E hc (c30_no_infinite_path hv hr).2.1 hd ha

/-- The requirement that facet types have no facets is needed: marking a type whose first custom facet is of that very
type never returns. -/
theorem c30_own_facet_diverges {h : St} {a : Addr} {b : Base} {f : StringF} {i : Nat} {k : String} {p : Property}
    {ps : List (String × Property)} (hb : h.base a = some b) (hu : b.unwrapped = true) (hv : b.visited = false)
    (hs : b.shape = some (.string f)) (hi : b.facetDefs = some i) (hp : h.props (some i) = (k, p) :: ps)
    (hpa : p.base = a) (n : Nat) : (mark n a h).1 = .diverge := by
  induction n generalizing h b with
  | zero => rfl
  | succ n ih =>
    unfold mark
    rw [M.bind_of_ok (getBase_ok.2 ⟨hb, rfl⟩)]
    simp only [hu, hv, Bool.not_true, Bool.false_eq_true, if_false]
    rw [M.bind_of_ok (upd_run a _ h), hs, hi]
    refine (congrArg Prod.fst (M.bind_of_ok (show markShape (mark n) a (some (.string f)) _ = (.ok (), _) from rfl))).trans ?_
    refine (congrArg Prod.fst (M.bind_of_ok (upd_run a _ _))).trans ?_
    have hb2 : St.base { h with bases := ((h.bases.modify a (fun x => { x with visited := true })).modify a
        (fun x => { x with visited := false })) } a = some { b with visited := false } := by
      have : h.bases[a]? = some b := hb
      simp [St.base, List.getElem?_modify, this]
    have hp2 : St.props { h with bases := ((h.bases.modify a (fun x => { x with visited := true })).modify a
        (fun x => { x with visited := false })) } (some i) = (k, p) :: ps := hp
    generalize ({ h with bases := ((h.bases.modify a (fun x => { x with visited := true })).modify a
        (fun x => { x with visited := false })) } : St) = h2 at hb2 hp2
    have hd := ih hb2 hu rfl hs hi hp2
    have hrun : (markProps (mark n) i h2).1 = .diverge := by
      unfold markProps
      rw [hp2, List.length_cons, List.range_succ_eq_map]
      have h1 : (markProp (mark n) i 0 h2).1 = .diverge := by
        unfold markProp
        rw [hp2]
        simp only [List.getElem?_cons_zero, hpa]
        cases hm : mark n a h2 with
        | mk o g => rw [hm] at hd; cases hd; simp [M.bind, hm]
      cases hm : markProp (mark n) i 0 h2 with
      | mk o g => rw [hm] at h1; cases h1; simp [M.forEach, M.bind, hm]
    cases hm : markProps (mark n) i h2 with
    | mk o g => rw [hm] at hrun; cases hrun; simp [M.bind, whenSome, hm]

/-- An unwrapped recursive type: `Node: { properties: { next?: Node, tags: string[] } }`. -/
def exMarkNode : St :=
  { bases := [{ shape := some (.object { properties := some 0 }), unwrapped := true },
      { shape := some (.array { items := some 2 }), unwrapped := true }, { shape := some (.string {}), unwrapped := true }]
    pmaps := [[("next", { name := "next", base := 0, required := false }),
      ("tags", { name := "tags", base := 1, required := true })]] }

/-- It meets the hypotheses of C30, is on a cycle, and after marking the property `next` holds a recursive reference to the
type, in a new base; the property `tags` is unchanged. -/
example : ReadyToMark exMarkNode 0 ∧ NoneVisited exMarkNode ∧ Closed exMarkNode ∧ OnCycle exMarkNode 0 ∧
    ((mark 8 0 exMarkNode).2.props (some 0)).map (fun p => (p.1, p.2.base)) = [("next", 3), ("tags", 1)] ∧
    (match (mark 8 0 exMarkNode).2.shapeAt 3 with | some (.recursive x) => decide (x = 0) | _ => false) = true ∧ exMarkNode.base 3 = none := by
  have cases3 : ∀ (a : Nat) b, exMarkNode.base a = some b → a = 0 ∨ a = 1 ∨ a = 2 := by
    intro a b h
    have : a < 3 := lt_of_get h
    omega
  have h0 : Refers exMarkNode 0 0 := ⟨.object { properties := some 0 }, rfl, .property (p := ("next", { name := "next", base := 0, required := false }))
    (by simp [exMarkNode, St.props])⟩
  refine ⟨⟨fun x => x < 3, by decide, fun x hx => ?_⟩, ?_, ?_, .single (.refers h0), by decide +kernel, by decide +kernel,
    by decide +kernel⟩
  · obtain ⟨b, hb⟩ := get_of_lt (l := exMarkNode.bases) hx
    refine ⟨b, hb, ?_, ?_, ?_⟩
    · rcases cases3 x b hb with rfl | rfl | rfl <;> cases hb <;> rfl
    · rintro y (⟨s, h1, h2⟩ | ⟨h1, h2⟩)
      · obtain ⟨b', hb1, hb2⟩ : ∃ b, exMarkNode.base x = some b ∧ b.shape = some s := by
          simpa [St.shapeAt, Option.bind_eq_some_iff] using h1
        rcases cases3 x b' hb1 with rfl | rfl | rfl <;> cases hb1 <;> cases hb2 <;> cases h2
        · rename_i hp
          simp [exMarkNode, St.props] at hp
          rcases hp with rfl | rfl <;> decide
        · rename_i hp
          simp [St.patProps] at hp
        · rename_i hp
          cases hp; decide
      · rename_i b' p
        rcases cases3 x b' h1 with rfl | rfl | rfl <;> cases h1 <;> simp [St.props] at h2
    · intro p hp
      rcases cases3 x b hb with rfl | rfl | rfl <;> cases hb <;> simp [St.props] at hp
  · intro a b h
    rcases cases3 a b h with rfl | rfl | rfl <;> cases h <;> rfl
  · intro a b h
    rcases cases3 a b h with rfl | rfl | rfl <;> cases h
    · exact ⟨_, rfl, by decide, by decide⟩
    · refine ⟨_, rfl, ?_⟩; intro i hi; cases hi; decide
    · exact ⟨_, rfl, trivial⟩

/-- A heap as in `c30_own_facet_diverges`. -/
example : ∃ (h : St) (b : Base), h.base 0 = some b ∧ b.unwrapped = true ∧ b.visited = false ∧ b.shape = some (.string {}) ∧
    b.facetDefs = some 0 ∧ h.props (some 0) = [("f", { name := "f", base := 0, required := false })] :=
  ⟨{ bases := [{ shape := some (.string {}), unwrapped := true, facetDefs := some 0 }]
     pmaps := [[("f", { name := "f", base := 0, required := false })]] }, _, rfl, rfl, rfl, rfl, rfl, rfl⟩

end GoRaml.Props
