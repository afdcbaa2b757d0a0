import Verif.Lemmas.LoadParse
import Verif.Spec.Refs
import Mathlib.Data.Finset.Card
import Mathlib.Data.Finset.Range

/-!
# Resolution of a type ends
-/

namespace GoRaml.Load

open GoRaml GoRaml.Spec

/-- The run does not run out of fuel. -/
def Ends {α : Type} (m : M St α) (s : St) : Prop := (m s).1 ≠ .diverge

theorem Ends.bind {α β : Type} {m : M St α} {f : α → M St β} {s : St} (h : Ends m s) (k : ∀ x s', m s = (.ok x, s') → Ends (f x) s') : Ends (M.bind m f) s := by
  unfold Ends M.bind at *
  cases hm : m s with
  | mk o t =>
    rw [hm] at h
    cases o with
    | ok x => exact k x t hm
    | err e => simp
    | panic e => simp
    | diverge => exact absurd rfl h

theorem Ends.ret {α : Type} {x : α} {s : St} : Ends (M.ret x) s := by simp [Ends, M.ret]

theorem Ends.err {α : Type} {e : String} {s : St} : Ends (M.err e : M St α) s := by simp [Ends, M.err]

theorem Ends.panic {α : Type} {e : String} {s : St} : Ends (M.panic e : M St α) s := by simp [Ends, M.panic]

theorem Ends.getBase {a : Addr} {s : St} : Ends (Heap.getBase a) s := by
  unfold Ends Heap.getBase; split <;> simp

theorem Ends.updBase {a : Addr} {f : Base → Base} {s : St} : Ends (Heap.updBase a f) s := by simp [Ends, Heap.updBase, M.modify]

theorem Run.ends {α : Type} {E : Env} {K : Ctl} {r : Prop} {P π : Perm} {m : M St α} {s : St} {Q : α → St → Prop} (h : Run E K r P π m s Q) (hd : ¬ K.div) : Ends m s := by
  unfold Run at h; unfold Ends
  cases hm : m s with
  | mk o t =>
    rw [hm] at h
    cases o with
    | diverge => exact absurd h hd
    | _ => simp

theorem Run.ok {α : Type} {E : Env} {K : Ctl} {r : Prop} {P π : Perm} {m : M St α} {s s' : St} {Q : α → St → Prop} {x : α} (h : Run E K r P π m s Q) (hm : m s = (.ok x, s')) :
    W E P s' ∧ K.X s' ∧ G r π s s' ∧ Q x s' := by
  unfold Run at h; rw [hm] at h; exact h

theorem getBase_ok {a : Addr} {s s' : St} {b : Base} (h : Heap.getBase a s = (.ok b, s')) : s' = s ∧ s.base a = some b := by
  unfold Heap.getBase at h
  cases hb : s.base a with
  | none => rw [hb] at h; cases h
  | some b' => rw [hb] at h; cases h; exact ⟨rfl, rfl⟩

theorem getReferenced_ends {s : St} {sel : Lib → OMap Addr} {t loc : String} : getReferenced s sel t loc ≠ .diverge := by
  unfold getReferenced
  split
  · intro h; cases h
  · split
    · intro h; cases h
    · unfold Lib.getReference lookupUsed
      simp only
      repeat' split
      all_goals intro h; cases h
  · split
    · intro h; cases h
    · unfold DT.getReference lookupUsed
      simp only
      repeat' split
      all_goals intro h; cases h
  · intro h; cases h

theorem Ends.lift {α : Type} {o : Out α} {s : St} (h : o ≠ .diverge) : Ends (M.lift o) s := h

theorem lift_ok {α : Type} {o : Out α} {s s' : St} {x : α} (h : M.lift o s = (.ok x, s')) : s' = s ∧ o = .ok x := by
  unfold M.lift at h; cases h; exact ⟨rfl, rfl⟩

/-- What a name stands for does not change once its file is loaded. -/
theorem getReferenced_same {E : Env} {P : Perm} {s s' : St} (hw : W E P s) (g : G True (only allPaths) s s') {sel : Lib → OMap Addr} {t loc : String} {f : FragRef}
    (hf : getFragment s loc = some f) : getReferenced s' sel t loc = getReferenced s sel t loc := by
  have hused : ∀ (uses : OMap (String × Option Nat)) b c, UsesIn s uses → lookupUsed s' uses sel b c = lookupUsed s uses sel b c := by
    intro uses b c hu
    unfold lookupUsed
    cases hg : OMap.get uses b with
    | none => rfl
    | some vl =>
      obtain ⟨v, link⟩ := vl
      have h1 := hu _ (OMap.mem_of_get hg)
      have h2 : (link.bind fun i => s'.libs[i]?) = link.bind fun i => s.libs[i]? := by
        cases link with
        | none => rfl
        | some i => exact g.lib i (h1 i rfl) id
      simp only [h2]
  unfold getReferenced
  rw [hf, g.frag _ _ hf]
  have hin := hw.frags _ (OMap.mem_of_get hf)
  cases f with
  | namedExample i => rfl
  | library i =>
    obtain ⟨l, hl, _⟩ := hin
    simp only [g.lib i (List.getElem?_eq_some_iff.1 hl).1 id, hl]
    unfold Lib.getReference
    simp only [hused _ _ _ (hw.lib i l hl).uses]
  | dataType i =>
    obtain ⟨l, hl, _⟩ := hin
    simp only [g.dt i (List.getElem?_eq_some_iff.1 hl).1 id, hl]
    unfold DT.getReference
    simp only [hused _ _ _ (hw.dt i l hl).uses]

section
variable {E : Env} {s0 : St}

/-- A state of the resolution that started in `s0`. -/
structure Later (E : Env) (s0 : St) (P : Perm) (s : St) : Prop where
  w : W E P s
  calm : Calm P s
  g : G True (only allPaths) s0 s

open Classical in
/-- How many of the types of `s0` are not resolved in `s`. -/
noncomputable def todo (s0 s : St) : Nat := ((Finset.range s0.bases.length).filter fun x => ∃ b, s.base x = some b ∧ Unk b).card

theorem unk_back {s s' : St} {x : Addr} (g : G True (only allPaths) s s') (hx : IsBase s x) {b : Base} (hb : s'.base x = some b) (hu : Unk b) : s.base x = some b := by
  rcases g.base x hx id with h | ⟨_, _, h⟩
  · exact h ▸ hb
  · exact absurd h (not_concrete hb hu)

theorem todo_le {s s' : St} (g0 : s0.bases.length ≤ s.bases.length) (g : G True (only allPaths) s s') : todo s0 s' ≤ todo s0 s := by
  refine Finset.card_le_card fun x hx => ?_
  simp only [Finset.mem_filter, Finset.mem_range] at hx ⊢
  obtain ⟨h1, b, hb, hu⟩ := hx
  exact ⟨h1, b, unk_back g (Nat.lt_of_lt_of_le h1 g0) hb hu, hu⟩

theorem todo_lt {s s' : St} (g0 : s0.bases.length ≤ s.bases.length) (g : G True (only allPaths) s s') {a : Addr} (ha : IsBase s0 a) {b : Base} (hb : s.base a = some b) (hu : Unk b)
    (hc : Concrete s' a) : todo s0 s' < todo s0 s := by
  refine Finset.card_lt_card ⟨fun x hx => ?_, fun h => ?_⟩
  · simp only [Finset.mem_filter, Finset.mem_range] at hx ⊢
    obtain ⟨h1, b, hb, hu⟩ := hx
    exact ⟨h1, b, unk_back g (Nat.lt_of_lt_of_le h1 g0) hb hu, hu⟩
  · classical
    have := h (Finset.mem_filter.2 ⟨Finset.mem_range.2 ha, b, hb, hu⟩)
    simp only [Finset.mem_filter, Finset.mem_range] at this
    obtain ⟨_, b', hb', hu'⟩ := this
    exact not_concrete hb' hu' hc

theorem todo_pos {s : St} {a : Addr} (ha : IsBase s0 a) {b : Base} (hb : s.base a = some b) (hu : Unk b) : 0 < todo s0 s := by
  classical
  exact Finset.card_pos.2 ⟨a, Finset.mem_filter.2 ⟨Finset.mem_range.2 ha, b, hb, hu⟩⟩

variable {c : Calls} {rec : Addr → M St Unit} {P : Perm} {s : St} {a : Addr} {k : Nat}

theorem Later.step (h : Later E s0 P s) {P' : Perm} {s' : St} (hw : W E P' s') (hc : Calm P' s') (g : G True (only allPaths) s s') : Later E s0 P' s' := ⟨hw, hc, h.g.trans g⟩

/-- Giving a base a shape without facets ends. -/
theorem plain_ends {b : Base} {t : String} (hw : W E P s) (hb : s.base a = some b) (ho : P.b a ∨ Kind (emptyShape t) ≠ "unknown") : Ends (makeConcrete E c a t none) s :=
  (makeConcrete_run (K := leftCtl [] 1) (T := allPaths) (fun _ h => by cases h) hw (show missing [] s < 1 by simp [missing]) hb ho).ends id

theorem makeNewShape_ends {name t loc : String} (hw : W E P s) : Ends (makeNewShape E c name t loc) s := by
  unfold makeNewShape
  refine Ends.bind ((Run.makeBaseShape (K := leftCtl [] 1) (r := False) (π := only allPaths) hw (show missing [] s < 1 by simp [missing])).ends id) fun m s1 hm => ?_
  obtain ⟨hw1, _, _, e, hb⟩ := (Run.makeBaseShape (K := leftCtl [] 1) (r := False) (π := only allPaths) hw (show missing [] s < 1 by simp [missing])).ok hm
  subst e
  exact Ends.bind (plain_ends hw1 hb (.inl addB_self)) fun _ _ _ => Ends.ret

/-! ## The parts of an expression -/

variable (hw0 : W E noPerm s0) (hS : ∀ loc v, Sub E anyCtl allPaths c loc v) (hrec : RecSpec E anyCtl rec)

/-- The recursive calls end while at most `k` types are left. -/
def RecEnds (E : Env) (s0 : St) (rec : Addr → M St Unit) (k : Nat) : Prop := ∀ P s a, Later E s0 P s → IsBase s0 a → todo s0 s ≤ k → Ends (rec a) s

/-- Visiting a part of an expression ends. -/
def PartEnds (E : Env) (s0 : St) (at_ : Addr → Option (List YNode) → M St Unit) (k : Nat) : Prop :=
  ∀ P s m b, Later E s0 P s → s.base m = some b → Unk b → (∃ f, getFragment s0 b.location = some f) → todo s0 s ≤ k → Ends (at_ m none) s

def MembersEnd (E : Env) (s0 : St) (members : String → M St (List Addr)) (k : Nat) : Prop :=
  ∀ P s loc, Later E s0 P s → (∃ f, getFragment s0 loc = some f) → todo s0 s ≤ k → Ends (members loc) s

include hS in
theorem part_ends {β : Type} {e : Rdt} {at_ : Addr → Option (List YNode) → M St Unit} (hat : AtSpec E anyCtl (fun s lo loc => layout s lo loc e) at_)
    (hend : PartEnds E s0 at_ k) {f : Addr → M St β} {loc : String} (h : Later E s0 P s) (hloc : ∃ f, getFragment s0 loc = some f) (hk : todo s0 s ≤ k)
    (hf : ∀ m s', Later E s0 P s' → todo s0 s' ≤ k → Ends (f m) s') : Ends (M.bind (makeNewShape E c "" "" loc) fun m => M.bind (at_ m none) fun _ => f m) s := by
  have e' : (M.bind (makeNewShape E c "" "" loc) fun m => M.bind (at_ m none) fun _ => f m) =
      M.bind (M.bind (makeNewShape E c "" "" loc) fun m => M.bind (at_ m none) fun _ => M.ret m) f := by
    rw [M.bind_assoc]
    congr 1
    funext m
    rw [M.bind_assoc]
    rfl
  rw [e']
  refine Ends.bind (Ends.bind (makeNewShape_ends h.w) fun m s1 hm => Ends.bind ?_ fun _ _ _ => Ends.ret) fun m s1 hm => ?_
  · obtain ⟨hw1, _, g1, ⟨e, b, hb, hl, _, hsh⟩, _⟩ := (makeNewShape_run hS h.w trivial).ok hm
    have hu : Unk b := ⟨none, by rw [hsh, unk_empty]⟩
    rw [← e] at hw1
    exact hend _ s1 m b (h.step hw1 ((h.calm.mono g1).add hb (.inl hu)) g1) hb hu (hl ▸ hloc) (Nat.le_trans (todo_le h.g.bases g1) hk)
  · obtain ⟨hw1, _, g1, _⟩ := (part_run hS hat (fun s lo lo' loc plain a h => (layout_lower h e).1 plain a) (fun s lo loc plain a h => layout_concrete e h) h.w trivial h.calm).ok hm
    exact hf m s1 (h.step hw1 (h.calm.mono g1) g1) (Nat.le_trans (todo_le h.g.bases g1) hk)

theorem setAnyOf_ends {ss : List Addr} : Ends (setAnyOf a ss) s := by
  unfold setAnyOf
  exact Ends.bind (by simp [Ends, Heap.newSlice]) fun _ _ _ => Ends.updBase

/-- Visiting a reference ends, if resolving what it refers to does and giving the target a shape does. -/
theorem visitReference_ends (hrec : RecSpec E anyCtl rec) {x : String} {y : Option String} {facets : Option (List YNode)} {b : Base} (h : Later E s0 P s) (hb : s.base a = some b)
    (hr : ∀ ref rb, getReferenced s Lib.types (refText x y) b.location = .ok ref → s.base ref = some rb → rb.id ≠ b.id → Ends (rec ref) s)
    (hc : ∀ s' b' t, G True (only allPaths) s s' → W E P s' → s'.base a = some b' → b'.location = b.location → Kind (emptyShape t) ≠ "unknown" → Ends (makeConcrete E c a t facets) s') :
    Ends (visitReference E c rec (refText x y) a facets) s := by
  unfold visitReference
  refine Ends.bind Ends.getBase fun b0 s1 h1 => ?_
  obtain ⟨rfl, hb0⟩ := getBase_ok h1
  rw [hb] at hb0; cases hb0
  show Ends (M.bind (M.lift (getReferenced s1 Lib.types (refText x y) b.location)) _) s1
  refine Ends.bind (Ends.lift getReferenced_ends) fun ref s2 h2 => ?_
  obtain ⟨rfl, href⟩ := lift_ok h2
  refine Ends.bind Ends.getBase fun rb s3 h3 => ?_
  obtain ⟨rfl, hrb⟩ := getBase_ok h3
  split
  · exact Ends.err
  rename_i hid
  refine Ends.bind (hr ref rb href hrb hid) fun _ s4 h4 => ?_
  obtain ⟨hw4, _, g4, hcon, _⟩ := (hrec P s3 ref h.w trivial h.calm (base_isBase hrb)).ok h4
  refine Ends.bind Ends.getBase fun rb' s5 h5 => ?_
  obtain ⟨rfl, hrb'⟩ := getBase_ok h5
  obtain ⟨rb2, hrb2, sh, _, hk, hn⟩ := hcon
  rw [hrb2] at hrb'; cases hrb'
  rw [hk] at hn
  obtain ⟨b', hb', hl⟩ := g4.loc a b hb
  refine Ends.bind (hc s5 b' _ g4 hw4 hb' hl hn) fun _ s6 _ => Ends.bind Ends.updBase fun _ s7 _ => ?_
  cases facets with
  | none => exact Ends.updBase
  | some l =>
    simp only
    unfold Ends appendInherits
    split
    · simp
    · exact Ends.bind (by simp [Ends, Heap.newSlice]) fun _ _ _ => Ends.updBase

include hS in
/-- The target gets the shape of a composite type; what comes then starts from a state with fewer types left. -/
theorem composite_ends {β : Type} {t : String} {facets : Option (List YNode)} {b : Base} {f : M St β} (h : Later E s0 P s) (hb : s.base a = some b) (hu : Unk b)
    (ht : Kind (emptyShape t) ≠ "unknown") (hmk : Ends (makeConcrete E c a t facets) s) (hk : ∀ s1, G True (only allPaths) s s1 → Concrete s1 a → todo s0 s1 ≤ k)
    (hf : ∀ s1, Later E s0 P s1 → todo s0 s1 ≤ k → Ends f s1) : Ends (M.bind (makeConcrete E c a t facets) fun _ => f) s := by
  refine Ends.bind hmk fun _ s1 h1 => ?_
  have hr := Run.finish (a := a) ((concrete_run hS (P := P) (facets := facets) h.w trivial hb ht).post (Q' := fun _ s' => Concrete s' a)
    fun _ s' _ _ ⟨⟨sh, h1, hm⟩, _⟩ => ⟨_, h1, typed_of hm ht⟩) (not_concrete hb hu) fun _ _ h => h
  obtain ⟨hw1, _, g1, hc1⟩ := hr.ok h1
  exact hf s1 (h.step hw1 (h.calm.mono g1) g1) (hk s1 g1 hc1)

include hS in
theorem visitOptional_ends {e : Rdt} {v : Visitor} {facets : Option (List YNode)} {b : Base} (hat : AtSpec E anyCtl (fun s lo loc => layout s lo loc e) v.at_) (hend : PartEnds E s0 v.at_ k)
    (h : Later E s0 P s) (hb : s.base a = some b) (hu : Unk b) (hloc : ∃ f, getFragment s0 b.location = some f)
    (hmk : Ends (makeConcrete E c a "union" facets) s) (hk : ∀ s1, G True (only allPaths) s s1 → Concrete s1 a → todo s0 s1 ≤ k) : Ends (visitOptional E c v a facets) s := by
  unfold visitOptional
  refine Ends.bind Ends.getBase fun b0 s1 h1 => ?_
  obtain ⟨rfl, hb0⟩ := getBase_ok h1
  rw [hb] at hb0; cases hb0
  exact composite_ends hS h hb hu kind_union_ne hmk hk fun s2 h2 hk2 => part_ends hS hat hend h2 hloc hk2 fun m s3 h3 _ =>
    Ends.bind (makeNewShape_ends h3.w) fun _ _ _ => setAnyOf_ends

include hS in
theorem visitArray_ends {e : Rdt} {v : Visitor} {facets : Option (List YNode)} {b : Base} (hat : AtSpec E anyCtl (fun s lo loc => layout s lo loc e) v.at_) (hend : PartEnds E s0 v.at_ k)
    (h : Later E s0 P s) (hb : s.base a = some b) (hu : Unk b) (hloc : ∃ f, getFragment s0 b.location = some f)
    (hmk : Ends (makeConcrete E c a "array" facets) s) (hk : ∀ s1, G True (only allPaths) s s1 → Concrete s1 a → todo s0 s1 ≤ k) : Ends (visitArray E c v a facets) s := by
  unfold visitArray
  refine Ends.bind Ends.getBase fun b0 s1 h1 => ?_
  obtain ⟨rfl, hb0⟩ := getBase_ok h1
  rw [hb] at hb0; cases hb0
  exact composite_ends hS h hb hu (by decide +kernel) hmk hk fun s2 h2 hk2 => part_ends hS hat hend h2 hloc hk2 fun m s3 h3 _ => Ends.updBase

include hS in
theorem visitUnion_ends {members : String → M St (List Addr)} {facets : Option (List YNode)} {b : Base} (hend : MembersEnd E s0 members k)
    (h : Later E s0 P s) (hb : s.base a = some b) (hu : Unk b) (hloc : ∃ f, getFragment s0 b.location = some f)
    (hmk : Ends (makeConcrete E c a "union" facets) s) (hk : ∀ s1, G True (only allPaths) s s1 → Concrete s1 a → todo s0 s1 ≤ k) : Ends (visitUnion E c members a facets) s := by
  unfold visitUnion
  refine Ends.bind Ends.getBase fun b0 s1 h1 => ?_
  obtain ⟨rfl, hb0⟩ := getBase_ok h1
  rw [hb] at hb0; cases hb0
  exact composite_ends hS h hb hu kind_union_ne hmk hk fun s2 h2 hk2 => Ends.bind (hend P s2 _ h2 hloc hk2) fun _ _ _ => setAnyOf_ends

include hw0 hS hrec in
theorem parts_end (hT : RecEnds E s0 rec k) : ∀ e : Rdt, PartEnds E s0 (visitor E c rec e).at_ k ∧ MembersEnd E s0 (visitor E c rec e).members k := by
  have hlast : ∀ (e : Rdt) {at_ : Addr → Option (List YNode) → M St Unit}, AtSpec E anyCtl (fun s lo loc => layout s lo loc e) at_ → PartEnds E s0 at_ k →
      MembersEnd E s0 (Visitor.last E c at_).members k := fun e at_ h1 h2 P s loc h hloc hk => part_ends hS h1 h2 h hloc hk fun _ _ _ _ => Ends.ret
  intro e
  induction e with
  | prim p =>
    have h1 : PartEnds E s0 (visitor E c rec (.prim p)).at_ k := fun P s m b h hb _ _ _ => plain_ends h.w hb (.inr (by cases p <;> decide +kernel))
    exact ⟨h1, hlast (.prim p) (visitor_run hS hrec (.prim p)).1 h1⟩
  | ref x y =>
    have h1 : PartEnds E s0 (visitor E c rec (.ref x y)).at_ k := fun P s m b h hb hu hloc hk => by
      refine visitReference_ends hrec h hb (fun ref rb href _ _ => ?_) fun s' b' t _ hw' hb' _ hn => plain_ends hw' hb' (.inr hn)
      obtain ⟨f, hf⟩ := hloc
      rw [getReferenced_same hw0 h.g hf] at href
      exact hT P s ref h (getReferenced_isBase hw0 (fun l hl => hl.types) href) hk
    exact ⟨h1, hlast (.ref x y) (visitor_run hS hrec (.ref x y)).1 h1⟩
  | group e ih => exact ⟨ih.1, hlast (.group e) (visitor_run hS hrec (.group e)).1 ih.1⟩
  | optional e ih =>
    have h1 : PartEnds E s0 (visitor E c rec (.optional e)).at_ k := fun P s m b h hb hu hloc hk =>
      visitOptional_ends hS (visitor_run hS hrec e).1 ih.1 h hb hu hloc (plain_ends h.w hb (.inr kind_union_ne)) fun s1 g1 _ => Nat.le_trans (todo_le h.g.bases g1) hk
    exact ⟨h1, hlast (.optional e) (visitor_run hS hrec (.optional e)).1 h1⟩
  | array e ih =>
    have h1 : PartEnds E s0 (visitor E c rec (.array e)).at_ k := fun P s m b h hb hu hloc hk =>
      visitArray_ends hS (visitor_run hS hrec e).1 ih.1 h hb hu hloc (plain_ends h.w hb (.inr (by decide +kernel))) fun s1 g1 _ => Nat.le_trans (todo_le h.g.bases g1) hk
    exact ⟨h1, hlast (.array e) (visitor_run hS hrec (.array e)).1 h1⟩
  | union l r ihl ihr =>
    have hm : MembersEnd E s0 (visitor E c rec (.union l r)).members k := fun P s loc h hloc hk =>
      part_ends hS (visitor_run hS hrec l).1 ihl.1 h hloc hk fun m s' h' hk' => Ends.bind (ihr.2 P s' loc h' hloc hk') fun _ _ _ => Ends.ret
    exact ⟨fun P s m b h hb hu hloc hk => visitUnion_ends hS hm h hb hu hloc (plain_ends h.w hb (.inr kind_union_ne)) fun s1 g1 _ => Nat.le_trans (todo_le h.g.bases g1) hk, hm⟩

/-! ## One type -/

/-- The facets of the types of `s0` can be decoded with this fuel. -/
def FacetsEnd (E : Env) (s0 : St) (files : List String) (L : Nat) (c : Calls) : Prop :=
  ∀ a b l, s0.base a = some b → b.shape = some (.unknown (some l)) → ∀ u ∈ l, Sub E (leftCtl files L) allPaths c b.location u

/-- Giving a type of `s0` its shape ends. -/
theorem facets_end {files : List String} {L : Nat} (hL : missing files s0 < L) (hF : FacetsEnd E s0 files L c) {b0 : Base} {facets : Option (List YNode)}
    (hb0 : s0.base a = some b0) (hf : b0.shape = some (.unknown facets)) (g : G True (only allPaths) s0 s) (hw : W E P s) {b : Base} (hb : s.base a = some b)
    (hl : b.location = b0.location) {t : String} (ht : Kind (emptyShape t) ≠ "unknown") : Ends (makeConcrete E c a t facets) s := by
  refine (makeConcrete_run (K := leftCtl files L) (T := allPaths) (fun l hl' u hu => ?_) hw (Nat.lt_of_le_of_lt (missing_le fun p f hp => ⟨f, g.frag p f hp⟩) hL) hb (.inr ht)).ends id
  subst hl'
  rw [hl]
  exact hF a b0 l hb0 hf u hu

include hw0 hS hrec in
theorem head_ends {files : List String} {L : Nat} (hL : missing files s0 < L) (hF : FacetsEnd E s0 files L c) (hT : RecEnds E s0 rec k) {b : Base} {facets : Option (List YNode)}
    (h : Later E s0 P s) (ha : IsBase s0 a) (hb : s.base a = some b) (hf : b.shape = some (.unknown facets)) (hloc : ∃ f, getFragment s0 b.location = some f) (hk : todo s0 s ≤ k + 1) :
    ∀ tree : Rdt, (∀ x y ref rb, headRef tree = some (x, y) → getReferenced s Lib.types (refText x y) b.location = .ok ref → s.base ref = some rb → rb.id ≠ b.id → Ends (rec ref) s) →
      Ends ((visitor E c rec tree).at_ a facets) s := by
  have hu : Unk b := ⟨facets, hf⟩
  have hb0 : s0.base a = some b := unk_back h.g ha hb hu
  have hmk : ∀ t, Kind (emptyShape t) ≠ "unknown" → Ends (makeConcrete E c a t facets) s := fun t ht => facets_end hL hF hb0 hf h.g h.w hb rfl ht
  have hkk : ∀ s1, G True (only allPaths) s s1 → Concrete s1 a → todo s0 s1 ≤ k := fun s1 g1 hc => by
    have := todo_lt h.g.bases g1 ha hb hu hc
    omega
  intro tree
  induction tree with
  | prim p => exact fun _ => plain_ends h.w hb (.inr (by cases p <;> decide +kernel))
  | ref x y =>
    exact fun hr => visitReference_ends hrec h hb (fun ref rb h1 h2 h3 => hr x y ref rb rfl h1 h2 h3)
      fun s' b' t g' hw' hb' hl' ht => facets_end hL hF hb0 hf (h.g.trans g') hw' hb' hl' ht
  | group e ih => exact ih
  | optional e => exact fun _ => visitOptional_ends hS (visitor_run hS hrec e).1 (parts_end hw0 hS hrec hT e).1 h hb hu hloc (hmk _ kind_union_ne) hkk
  | array e => exact fun _ => visitArray_ends hS (visitor_run hS hrec e).1 (parts_end hw0 hS hrec hT e).1 h hb hu hloc (hmk _ (by decide +kernel)) hkk
  | union l r => exact fun _ => visitUnion_ends hS (parts_end hw0 hS hrec hT (.union l r)).2 h hb hu hloc (hmk _ kind_union_ne) hkk

theorem forEach_ends (hrec : RecSpec E anyCtl rec) : ∀ (l : List Addr) {s : St}, Later E s0 P s → (∀ x ∈ l, IsBase s0 x) →
    (∀ x ∈ l, ∀ s', Later E s0 P s' → todo s0 s' ≤ todo s0 s → Ends (rec x) s') → Ends (M.forEach rec l) s
  | [], _, _, _, _ => Ends.ret
  | x :: l, s, h, hl, hr => by
    refine Ends.bind (hr x (by simp) s h (Nat.le_refl _)) fun _ s1 h1 => ?_
    obtain ⟨hw1, _, g1, _⟩ := (hrec P s x h.w trivial h.calm (h.g.isBase (hl x (by simp)))).ok h1
    exact forEach_ends hrec l (h.step hw1 (h.calm.mono g1) g1) (fun y hy => hl y (by simp [hy])) fun y hy s' h' hk' =>
      hr y (by simp [hy]) s' h' (Nat.le_trans hk' (todo_le h.g.bases g1))

/-- Giving the target the type of another base ends. -/
theorem likeOther_ends {files : List String} {L : Nat} (hL : missing files s0 < L) (hF : FacetsEnd E s0 files L c) {b0 : Base} {facets : Option (List YNode)} {i : Addr}
    (hb0 : s0.base a = some b0) (hf : b0.shape = some (.unknown facets)) (g : G True (only allPaths) s0 s) (hw : W E P s) (hi : Concrete s i) :
    Ends (M.bind (Heap.getBase i) fun ib => makeConcrete E c a ib.type facets) s := by
  refine Ends.bind Ends.getBase fun ib s1 h1 => ?_
  obtain ⟨rfl, hib⟩ := getBase_ok h1
  obtain ⟨ib', h2, sh, _, hk, hn⟩ := hi
  rw [h2] at hib; cases hib
  rw [hk] at hn
  obtain ⟨b, hb, hl⟩ := g.loc a b0 hb0
  exact facets_end hL hF hb0 hf g hw hb hl hn

include hw0 hS hrec in
theorem resolveStep_ends {files : List String} {L : Nat} (hL : missing files s0 < L) (hF : FacetsEnd E s0 files L c) (hreg : InLoadedFile s0) (hT : RecEnds E s0 rec k)
    (h : Later E s0 P s) (ha : IsBase s0 a) (hk : todo s0 s ≤ k + 1)
    (hr : ∀ x, Needs s0 a x → ∀ s', Later E s0 P s' → todo s0 s' ≤ k + 1 → Ends (rec x) s') : Ends (resolveStep E c rec a) s := by
  unfold resolveStep
  refine Ends.bind Ends.getBase fun b s1 h1 => ?_
  obtain ⟨rfl, hb⟩ := getBase_ok h1
  split
  · exact Ends.err
  · rename_i facets hf
    have hb0 : s0.base a = some b := unk_back h.g ha hb ⟨facets, hf⟩
    have hin := hw0.base a b hb0
    cases hlink : b.link with
    | some d =>
      simp only
      unfold Ends resolveLink
      have hdt : s1.dts[d]? = s0.dts[d]? := h.g.dt d (hin.link d hlink) id
      rw [hdt]
      split
      · simp
      · rename_i l hl
        refine Ends.bind (hr l ⟨b, facets, hb0, hf, .inl ⟨d, hlink, hl⟩⟩ s1 h hk) fun _ s2 h2 => ?_
        obtain ⟨dt, hd1, hd2⟩ := Option.bind_eq_some_iff.1 hl
        have hlb : IsBase s0 l := by
          obtain ⟨l', h3, h4⟩ := (hw0.dt d dt hd1).shape
          rw [hd2] at h3; cases h3; exact h4
        obtain ⟨hw2, _, g2, hc2, _⟩ := (hrec P s1 l h.w trivial h.calm (h.g.isBase hlb)).ok h2
        exact likeOther_ends hL hF hb0 hf (h.g.trans g2) hw2 hc2
    | none =>
      simp only
      split
      · rename_i hcomp
        unfold resolveMultipleInheritance
        refine Ends.bind Ends.getBase fun b' s2 h2 => ?_
        obtain ⟨rfl, hb'⟩ := getBase_ok h2
        rw [hb] at hb'; cases hb'
        have hsl : s2.slice b.inherits = s0.slice b.inherits := h.g.slice hin.inherits
        have hall : ∀ x ∈ s2.slice b.inherits, IsBase s0 x := fun x hx => slices_isBase hw0 x (hsl ▸ hx)
        refine Ends.bind (m := M.forEach rec (s2.slice b.inherits)) (forEach_ends hrec _ h hall fun x hx s' h' hk' =>
          hr x ⟨b, facets, hb0, hf, .inr (.inl ⟨hlink, hcomp, hsl ▸ hx⟩)⟩ s' h' (Nat.le_trans hk' hk)) fun _ s3 h3 => ?_
        obtain ⟨hw3, _, g3, hc3, _⟩ := (forEach_run hrec _ h.w trivial h.calm (fun x hx => h.g.isBase (hall x hx))).ok h3
        cases hh : (s2.slice b.inherits).head? with
        | none => exact Ends.panic
        | some i => exact likeOther_ends hL hF hb0 hf (h.g.trans g3) hw3 (hc3 i (List.mem_of_mem_head? hh))
      · rename_i hcomp
        cases hp : parseTypeExpression b.type with
        | none => exact Ends.err
        | some tree =>
          obtain ⟨f, hfr⟩ := hreg a b facets hb0 hf
          refine head_ends hw0 hS hrec hL hF hT h ha hb hf ⟨f, hfr⟩ hk tree fun x y ref rb h1 h2 h3 h4 => ?_
          rw [getReferenced_same hw0 h.g hfr] at h2
          refine hr ref ⟨b, facets, hb0, hf, .inr (.inr ⟨hlink, hcomp, tree, x, y, hp, h1, h2, fun bx hbx => ?_⟩)⟩ s1 h hk
          intro hid
          have := hw0.idInj ref a bx b hbx hb0 hid
          subst this
          rw [hb] at h3; cases h3
          exact h4 rfl
  · exact Ends.ret

end

theorem needs_isBase {E : Env} {P : Perm} {s : St} (hw : W E P s) {a x : Addr} (h : Needs s a x) : IsBase s x := by
  obtain ⟨b, facets, hb, hf, ⟨d, hd, hx⟩ | ⟨_, _, hx⟩ | ⟨_, _, _, _, _, _, _, hx, _⟩⟩ := h
  · obtain ⟨dt, hd1, hd2⟩ := Option.bind_eq_some_iff.1 hx
    obtain ⟨l', h3, h4⟩ := (hw.dt d dt hd1).shape
    rw [hd2] at h3; cases h3; exact h4
  · exact slices_isBase hw x hx
  · exact getReferenced_isBase hw (fun l hl => hl.types) hx

/-- Resolving a type ends, in a state where "is needed by" has no infinite descent. -/
theorem resolveShape_ends {E : Env} {s0 : St} (hfin : FinitelyManyFiles E) (hnc : NoIncludeCycle E) (hw0 : W E noPerm s0) (hreg : InLoadedFile s0) (rank : Addr → Nat)
    (hrank : ∀ a x, Needs s0 a x → rank x < rank a) : Ev fun n => ∀ a, IsBase s0 a → Ends (resolveShape E n a) s0 := by
  have hwf := includes_wf hfin hnc
  obtain ⟨files, hfiles⟩ := hfin
  let L := missing files s0 + 1
  have hall := ev_calls hfiles hwf L
  have hF : Ev fun n => FacetsEnd E s0 files L (calls E n) := by
    have h1 : Ev fun n => ∀ b ∈ s0.bases, ∀ l, b.shape = some (.unknown (some l)) → ∀ u ∈ l, Sub E (leftCtl files L) allPaths (calls E n) b.location u := by
      refine Ev.all s0.bases fun b _ => ?_
      by_cases hb : ∃ l, b.shape = some (.unknown (some l))
      · obtain ⟨l, hl⟩ := hb
        refine (Ev.all l fun u _ => ev_sub b.location u fun t _ _ => hall.mono fun n h => (h _).2).mono fun n h l' hl' => ?_
        rw [hl] at hl'; cases hl'; exact h
      · exact Ev.of fun _ l hl => absurd ⟨l, hl⟩ hb
    exact h1.mono fun n h a b l hb hl => h b (List.mem_of_getElem? hb) l hl
  have hS : ∀ n loc v, Sub E anyCtl allPaths (calls E n) loc v := fun n _ _ => (specs (K := anyCtl) trivial (anyRegs E) n).sub fun _ _ _ _ _ => trivial
  have hrec : ∀ n, RecSpec E anyCtl (resolveShape E n) := resolveShape_run trivial (anyRegs E)
  have hmain : ∀ k, Ev fun n => RecEnds E s0 (resolveShape E n) k := by
    intro k
    induction k with
    | zero =>
      refine (Ev.of (p := fun _ => True) fun _ => trivial).succ fun n _ P s a h ha hk => ?_
      show Ends (resolveStep E (calls E n) (resolveShape E n) a) s
      unfold resolveStep
      refine Ends.bind Ends.getBase fun b s1 h1 => ?_
      obtain ⟨rfl, hb⟩ := getBase_ok h1
      split
      · exact Ends.err
      · rename_i facets hf
        exfalso
        have := todo_pos ha hb ⟨facets, hf⟩
        omega
      · exact Ends.ret
    | succ k ih =>
      have hr : ∀ r, Ev fun n => ∀ P s a, Later E s0 P s → IsBase s0 a → todo s0 s ≤ k + 1 → rank a < r → Ends (resolveShape E n a) s := by
        intro r
        induction r with
        | zero => exact Ev.of fun n P s a _ _ _ h => absurd h (Nat.not_lt_zero _)
        | succ r ihr =>
          refine ((hF.and ih).and ihr).succ fun n ⟨⟨h1, h2⟩, h3⟩ P s a h ha hk hra => ?_
          refine resolveStep_ends hw0 (hS n) (hrec n) (Nat.lt_succ_self _) h1 hreg h2 h ha hk fun x hx s' h' hk' => ?_
          have hlt := hrank a x hx
          exact h3 P s' x h' (needs_isBase hw0 hx) hk' (by omega)
      let R := (Finset.range s0.bases.length).sup rank + 1
      refine (hr R).mono fun n h P s a hl ha hk => h P s a hl ha hk (Nat.lt_succ_of_le (Finset.le_sup (Finset.mem_range.2 ha)))
  refine (hmain (todo s0 s0)).mono fun n h a ha => h noPerm s0 a ⟨hw0, fun x hx => hx.elim, G.refl _ _ _⟩ ha (Nat.le_refl _)

end GoRaml.Load
