import Verif.Lemmas.TameFrag
import Verif.Model.Parse

/-!
# Parsing without panics: resolving references
-/

namespace GoRaml.Tame

open GoRaml GoRaml.Spec GoRaml.Load

variable {E : Env} {K : Vals E} {s : St}

/-- Resolving: the only panic is a reference through a library that has not been loaded. -/
abbrev Solves {α : Type} (K : Vals E) (m : M St α) (s : St) (Q : α → St → Prop) : Prop := Tame Unlinked (Fit K) Res m s Q

theorem Solves.bind {α β : Type} {m : M St α} {f : α → M St β} {Q : α → St → Prop} {Q' : β → St → Prop} (h1 : Solves K m s Q)
    (h2 : ∀ x s', Fit K s' → Res s s' → Q x s' → Solves K (f x) s' Q') : Solves K (M.bind m f) s Q' :=
  Tame.bind' h1 h2 (fun _ h => h) fun _ _ h k => Res.trans h k

theorem Solves.ret {α : Type} {x : α} {Q : α → St → Prop} (hw : Fit K s) (hq : Q x s) : Solves K (M.ret x) s Q := Tame.of rfl hw (.refl s) hq

theorem Solves.err {α : Type} {e : String} {Q : α → St → Prop} (hw : Fit K s) : Solves K (M.err e : M St α) s Q := ⟨hw, .refl s, trivial⟩

theorem Solves.diverge {α : Type} {Q : α → St → Prop} (hw : Fit K s) : Solves K (M.diverge : M St α) s Q := ⟨hw, .refl s, trivial⟩

theorem Runs.solves {α : Type} {m : M St α} {Q : α → St → Prop} (h : Runs K Unlinked none_ m s Q) : Solves K m s Q := h.move fun _ _ h => h.res fun _ h => h.elim

theorem Fills.solves {α : Type} {F : Addr → Prop} {m : M St α} {Q : α → St → Prop} (h : Fills K Unlinked F m s Q) : Solves K m s Q := h.move fun _ _ h => h.res

/-- The facets of a base. -/
def FacetsAt (E : Env) (s : St) (a : Addr) (facets : Option (List YNode)) : Prop := ∀ b fs, s.base a = some b → facets = some fs → FacetsOK E b.location fs

theorem FacetsAt.grow {s' : St} {a : Addr} {facets : Option (List YNode)} (h : FacetsAt E s a facets) (ha : IsBase s a) (g : Grown s s') : FacetsAt E s' a facets := by
  intro b fs hb hf
  obtain ⟨b0, hb0⟩ := Whole.isBase_base ha
  obtain ⟨b1, hb1, hl⟩ := g.loc a b0 hb0
  rw [hb] at hb1; cases hb1
  rw [hl]
  exact h b0 fs hb0 hf

theorem facetsAt_none {a : Addr} : FacetsAt E s a none := fun _ _ _ h => by cases h

/-! ## Looking up references -/

theorem lookupUsed_fit {uses : OMap (String × Option Nat)} {sel : Lib → OMap Addr} {x y : String} (hu : UsesIn s uses) (hs : ∀ l ∈ s.libs, ∀ e ∈ sel l, IsBase s e.2) :
    (∀ e, lookupUsed s uses sel x y = .panic e → ∃ v, OMap.get uses x = some (v, none)) ∧ ∀ a, lookupUsed s uses sel x y = .ok a → IsBase s a := by
  unfold lookupUsed
  cases hg : OMap.get uses x with
  | none => simp
  | some p =>
    obtain ⟨v, link⟩ := p
    cases link with
    | none => simp
    | some i =>
      have hi : i < s.libs.length := hu _ (Whole.mem_get hg) i rfl
      simp only [Option.bind, List.getElem?_eq_getElem hi]
      cases hg2 : OMap.get (sel s.libs[i]) y with
      | none => simp
      | some r => simpa using hs _ (List.getElem_mem hi) _ (Whole.mem_get hg2)

theorem getReferenced_fit {sel : Lib → OMap Addr} {n loc : String} (hw : Fit K s) (hs : ∀ l ∈ s.libs, ∀ e ∈ sel l, IsBase s e.2) :
    (∀ e, getReferenced s sel n loc = .panic e → Unlinked s) ∧ ∀ a, getReferenced s sel n loc = .ok a → IsBase s a := by
  unfold getReferenced
  cases hg : getFragment s loc with
  | none => simp
  | some x =>
    have hx := (hw.frags _ (Whole.mem_get hg)).1
    cases x with
    | namedExample i => simp
    | library i =>
      have hi : i < s.libs.length := hx
      have hm := List.getElem_mem hi
      simp only [List.getElem?_eq_getElem hi]
      obtain ⟨h1, h2⟩ := lookupUsed_fit (x := (cutReferenceName n).1) (y := (cutReferenceName n).2.1) (hw.lib _ hm).uses hs
      unfold Lib.getReference
      simp only
      have hsel : ∀ r, OMap.get (sel s.libs[i]) n = some r → IsBase s r := fun r hr => hs _ hm _ (Whole.mem_get hr)
      cases hg2 : OMap.get (sel s.libs[i]) n with
      | some r => by_cases hf : (cutReferenceName n).2.2 = true <;> simpa [hf] using hsel r hg2
      | none =>
        by_cases hf : (cutReferenceName n).2.2 = true
        · simp only [hf]
          exact ⟨fun e he => (h1 e he).elim fun v hv => .inl ⟨_, hm, _, v, hv⟩, h2⟩
        · simp [hf]
    | dataType i =>
      have hi : i < s.dts.length := hx
      have hm := List.getElem_mem hi
      simp only [List.getElem?_eq_getElem hi]
      obtain ⟨h1, h2⟩ := lookupUsed_fit (x := (cutReferenceName n).1) (y := (cutReferenceName n).2.1) (hw.dt _ hm).uses hs
      unfold DT.getReference
      simp only
      by_cases hf : (cutReferenceName n).2.2 = true
      · simp only [hf]
        exact ⟨fun e he => (h1 e he).elim fun v hv => .inr ⟨_, hm, _, v, hv⟩, h2⟩
      · simp [hf]

/-! ## The visitor -/

/-- What a visit of a base does. -/
def AtOK (K : Vals E) (at_ : Addr → Option (List YNode) → M St Unit) : Prop :=
  ∀ a facets s, Fit K s → IsBase s a → FacetsAt E s a facets → Solves K (at_ a facets) s fun _ s' => Done s' a

def MembersOK (K : Vals E) (members : String → M St (List Addr)) : Prop := ∀ loc s, Fit K s → Solves K (members loc) s fun l s' => ∀ x ∈ l, IsBase s' x

def RecOK (K : Vals E) (rec : Addr → M St Unit) : Prop := ∀ a s, Fit K s → IsBase s a → Solves K (rec a) s fun _ s' => Done s' a

section
variable (ho : Orderly E) {c : Calls} (hc : CallsOK K Unlinked c)

include ho hc

theorem solves_makeConcrete {a : Addr} {t : String} {facets : Option (List YNode)} (hw : Fit K s) (ha : IsBase s a) (ht : Known t) (hf : FacetsAt E s a facets) :
    Solves K (makeConcrete E c a t facets) s fun _ s' => Done s' a := (fills_makeConcrete (F := (· = a)) ho.yaml hc rfl hw ha ht hf).solves

theorem solves_makeNewShape {name t loc : String} (hw : Fit K s) (ht : t ≠ "composite") : Solves K (makeNewShape E c name t loc) s fun a s' => IsBase s' a := by
  have : Runs K Unlinked none_ (makeNewShape E c name t loc) s fun a s' => IsBase s' a := by
    refine Tame.move (R1 := Dec fun x => s.bases.length ≤ x) ?_ fun s' _ d => d.weaken fun x hx hl => (Nat.lt_irrefl _ (Nat.lt_of_lt_of_le hx hl)).elim
    show Runs K Unlinked (fun x => s.bases.length ≤ x) _ s _
    unfold makeNewShape
    refine Runs.bind (runs_makeBaseShape (name := name) (loc := loc) hw) fun a s1 hw1 _ ⟨e, ha⟩ => ?_
    refine Runs.bind (runs_makeConcrete ho.yaml hc (Nat.le_of_eq e.symm) hw1 ha.isBase ⟨fun _ _ _ h => (by cases h), fun _ _ h => absurd h ht⟩) fun _ s2 hw2 g2 _ => ?_
    exact Runs.ret hw2 (g2.grown.isBase ha.isBase)
  exact this.solves

omit ho hc in
/-- Setting a field of a resolved type. -/
theorem solves_upd {a : Addr} {f : Base → Base} (hw : Fit K s) (hd : Done s a) (hl : ∀ b, (f b).location = b.location) (hsh : ∀ b, (f b).shape = b.shape)
    (hf : ∀ b, Known b.type → BaseFit K s b → BaseFit K s (f b)) : Solves K (Heap.updBase a f) s fun _ s' => Done s' a := by
  have hd' : Done { s with bases := s.bases.modify a f } a := by
    obtain ⟨b, sh, hb, h1, h2⟩ := hd
    exact ⟨f b, sh, modify_base hb, (hsh b).trans h1, h2⟩
  have h := Fills.upd (K := K) (Bad := Unlinked) (F := (· = a)) hw rfl (fun b _ => hl b) (fun b hb h => hf b (Done.known hw hd hb) h) hd'
  exact (Fills.solves h).post fun _ s' _ _ e => by rw [e]; exact hd'

omit ho hc in
theorem solves_appendInherits {a ref : Addr} (hw : Fit K s) (hd : Done s a) (hr : IsBase s ref) : Solves K (appendInherits a ref) s fun _ s' => Done s' a := by
  obtain ⟨b, hb⟩ := Whole.isBase_base (done_isBase hd)
  refine Tame.congr (m := M.bind (Heap.newSlice (s.slice b.inherits ++ [ref])) fun i => Heap.updBase a fun b => { b with inherits := some i }) (by simp [appendInherits, hb]) ?_
  refine Solves.bind (Runs.solves (Runs.newSlice hw fun e he => ?_)) fun i s1 hw1 g1 ⟨hi, hsl, _⟩ => ?_
  · rcases List.mem_append.1 he with he | he
    · exact hw.sliceOf he
    · cases List.mem_singleton.1 he; exact hr
  · refine solves_upd hw1 (g1.done a hd) (fun _ => rfl) (fun _ => rfl) fun b _ hb => { hb with
      ptrs := ⟨hb.ptrs.1, hb.ptrs.2, hb.ptrs.3, hb.ptrs.4, ifSome_some hi, hb.ptrs.6⟩
      parents := fun _ _ _ => by rw [hsl]; simp }

theorem atOK_reference {rec : Addr → M St Unit} (hr : RecOK K rec) (text : String) : AtOK K (visitReference E c rec text) := by
  intro a facets s hw ha hf
  unfold visitReference
  refine Solves.bind (Runs.solves (Runs.getBase hw ha)) fun target s1 hw1 _ ⟨e, hb, _⟩ => ?_
  subst e
  obtain ⟨hg1, hg2⟩ := getReferenced_fit (sel := Lib.types) (n := text) (loc := target.location) hw fun l hl => (hw.lib l hl).types
  refine Tame.congr (m := M.bind (M.lift (getReferenced s1 Lib.types text target.location)) fun ref =>
    M.bind (Heap.getBase ref) fun refBase =>
    if refBase.id = target.id then M.err "self recursion"
    else
      M.bind (rec ref) fun _ =>
      M.bind (Heap.getBase ref) fun refBase =>
      M.bind (makeConcrete E c a refBase.type facets) fun _ =>
      M.bind (Heap.updBase a fun b => { b with typeLabel := text }) fun _ =>
      match facets with
      | none => Heap.updBase a fun b => { b with «alias» := some ref }
      | some _ => appendInherits a ref) rfl ?_
  refine Solves.bind (Q := fun ref s' => s' = s1 ∧ IsBase s1 ref) (Tame.lift (.refl _) hw hg1 fun x hx => ⟨rfl, hg2 x hx⟩) fun ref s2 hw2 _ ⟨e, href⟩ => ?_
  subst e
  refine Solves.bind (Runs.solves (Runs.getBase hw href)) fun rb s3 hw3 _ ⟨e, _⟩ => ?_
  subst e
  split
  · exact Solves.err hw
  refine Solves.bind (hr ref s3 hw href) fun _ s4 hw4 g4 hd4 => ?_
  refine Solves.bind (Runs.solves (Runs.getBase hw4 (done_isBase hd4))) fun rb' s5 hw5 _ ⟨e, hrb, _⟩ => ?_
  subst e
  refine Solves.bind (solves_makeConcrete ho hc hw4 (g4.grown.isBase ha) (Done.known hw4 hd4 hrb) (hf.grow ha g4.grown)) fun _ s6 hw6 g6 hd6 => ?_
  refine Solves.bind (solves_upd hw6 hd6 (fun _ => rfl) (fun _ => rfl) fun b _ h => h.congr rfl rfl rfl rfl rfl rfl rfl rfl rfl rfl rfl) fun _ s7 hw7 g7 hd7 => ?_
  have href7 : IsBase s7 ref := g7.grown.isBase (g6.grown.isBase (done_isBase hd4))
  cases facets with
  | none => exact solves_upd hw7 hd7 (fun _ => rfl) (fun _ => rfl) fun b _ hb => { hb with
      ptrs := ⟨hb.ptrs.1, hb.ptrs.2, hb.ptrs.3, ifSome_some href7, hb.ptrs.5, hb.ptrs.6⟩ }
  | some fs => exact solves_appendInherits hw7 hd7 href7

omit ho hc in
theorem solves_setAnyOf {a : Addr} {ss : List Addr} (hw : Fit K s) (hd : Done s a) (hs : ∀ x ∈ ss, IsBase s x) : Solves K (setAnyOf a ss) s fun _ s' => Done s' a := by
  unfold setAnyOf
  refine Solves.bind (Runs.solves (Runs.newSlice hw hs)) fun i s1 hw1 g1 ⟨hi, _, _⟩ => ?_
  have hok : ShapeOK K s1 (.union (some i) none) := ⟨ifSome_some hi, fun _ h => (by cases h), fun ⟨_, h⟩ => (by cases h)⟩
  exact Fills.solves (Fills.setShape (F := (· = a)) hw1 rfl (g1.done a hd) hok)

omit ho hc in
theorem solves_setArray {a : Addr} {f : ArrayF} (hw : Fit K s) (hd : Done s a) (hf : IfSome (IsBase s) f.items) : Solves K (setArray a f) s fun _ s' => Done s' a := by
  have hok : ShapeOK K s (.array f) := ⟨hf, fun _ h => (by cases h), fun ⟨_, h⟩ => (by cases h)⟩
  let g : Base → Base := fun b => match b.shape with
    | some (.array _) => { b with shape := some (.array f) }
    | _ => b
  have hg : ∀ b, g b = b ∨ g b = { b with shape := some (.array f) } := by
    intro b
    simp only [g]
    split
    · exact .inr rfl
    · exact .inl rfl
  have hd' : Done { s with bases := s.bases.modify a g } a := by
    obtain ⟨b, sh, hb, h1, h2⟩ := hd
    rcases hg b with h | h
    · exact ⟨b, sh, (modify_base hb).trans (congrArg some h), h1, h2⟩
    · exact ⟨_, .array f, (modify_base hb).trans (congrArg some h), rfl, hok.known⟩
  have h := Fills.upd (K := K) (Bad := Unlinked) (F := (· = a)) (f := g) hw rfl (fun b _ => by rcases hg b with h | h <;> rw [h]) (fun b hb h => by
    rcases hg b with h1 | h1 <;> rw [h1]
    · exact h
    · exact h.setShape (Done.known hw hd hb) hok) hd'
  exact (Fills.solves h).post fun _ s' _ _ e => by rw [e]; exact hd'

omit ho hc in
theorem known_union : Known "union" := fun f h => by simp [emptyShape] at h

omit ho hc in
theorem known_array : Known "array" := fun f h => by simp [emptyShape] at h

theorem atOK_union {members : String → M St (List Addr)} (hm : MembersOK K members) : AtOK K (visitUnion E c members) := by
  intro a facets s hw ha hf
  unfold visitUnion
  refine Solves.bind (Runs.solves (Runs.getBase hw ha)) fun target s1 hw1 _ ⟨e, hb, _⟩ => ?_
  subst e
  refine Solves.bind (solves_makeConcrete ho hc hw ha known_union hf) fun _ s2 hw2 g2 hd2 => ?_
  refine Solves.bind (hm _ s2 hw2) fun ss s3 hw3 g3 hss => ?_
  exact solves_setAnyOf hw3 (g3.done a hd2) hss

theorem atOK_optional {v : Visitor} (hv : AtOK K v.at_) : AtOK K (visitOptional E c v) := by
  intro a facets s hw ha hf
  unfold visitOptional
  refine Solves.bind (Runs.solves (Runs.getBase hw ha)) fun target s1 hw1 _ ⟨e, hb, _⟩ => ?_
  subst e
  refine Solves.bind (solves_makeConcrete ho hc hw ha known_union hf) fun _ s2 hw2 g2 hd2 => ?_
  refine Solves.bind (solves_makeNewShape ho hc hw2 (by simp)) fun m s3 hw3 g3 hm => ?_
  refine Solves.bind (hv m none s3 hw3 hm facetsAt_none) fun _ s4 hw4 g4 hm4 => ?_
  refine Solves.bind (solves_makeNewShape ho hc hw4 (by simp)) fun n s5 hw5 g5 hn => ?_
  refine solves_setAnyOf hw5 (g5.done a (g4.done a (g3.done a hd2))) fun x hx => ?_
  simp only [List.mem_cons, List.not_mem_nil, or_false] at hx
  rcases hx with rfl | rfl
  · exact g5.grown.isBase (done_isBase hm4)
  · exact hn

theorem atOK_array {v : Visitor} (hv : AtOK K v.at_) : AtOK K (visitArray E c v) := by
  intro a facets s hw ha hf
  unfold visitArray
  refine Solves.bind (Runs.solves (Runs.getBase hw ha)) fun target s1 hw1 _ ⟨e, hb, _⟩ => ?_
  subst e
  refine Solves.bind (solves_makeConcrete ho hc hw ha known_array hf) fun _ s2 hw2 g2 hd2 => ?_
  refine Solves.bind (solves_makeNewShape ho hc hw2 (by simp)) fun m s3 hw3 g3 hm => ?_
  refine Solves.bind (hv m none s3 hw3 hm facetsAt_none) fun _ s4 hw4 g4 hm4 => ?_
  refine Tame.congr (m := setArray a { arrayAt s4 a with items := some m }) rfl ?_
  exact solves_setArray hw4 (g4.done a (g3.done a hd2)) (ifSome_some (done_isBase hm4))

theorem membersOK_last {at_ : Addr → Option (List YNode) → M St Unit} (h : AtOK K at_) : MembersOK K (Visitor.last E c at_).members := by
  intro loc s hw
  refine Solves.bind (solves_makeNewShape ho hc hw (by simp)) fun m s1 hw1 _ hm => ?_
  refine Solves.bind (h m none s1 hw1 hm facetsAt_none) fun _ s2 hw2 _ hm2 => Solves.ret hw2 fun x hx => ?_
  cases List.mem_singleton.1 hx
  exact done_isBase hm2

omit ho hc in
theorem known_prim (p : Prim) : Known p.text := fun f h => by
  cases p <;> simp [Prim.text, emptyShape] at h

theorem visitorOK {rec : Addr → M St Unit} (hr : RecOK K rec) : ∀ t : Rdt, AtOK K (visitor E c rec t).at_ ∧ MembersOK K (visitor E c rec t).members
  | .prim p =>
    have h : AtOK K (visitor E c rec (.prim p)).at_ := fun a _ s hw ha _ => solves_makeConcrete ho hc hw ha (known_prim p) facetsAt_none
    ⟨h, membersOK_last ho hc h⟩
  | .ref x y =>
    have h : AtOK K (visitor E c rec (.ref x y)).at_ := atOK_reference ho hc hr _
    ⟨h, membersOK_last ho hc h⟩
  | .group e =>
    have h : AtOK K (visitor E c rec (.group e)).at_ := (visitorOK hr e).1
    ⟨h, membersOK_last ho hc h⟩
  | .optional e =>
    have h : AtOK K (visitor E c rec (.optional e)).at_ := atOK_optional ho hc (visitorOK hr e).1
    ⟨h, membersOK_last ho hc h⟩
  | .array e =>
    have h : AtOK K (visitor E c rec (.array e)).at_ := atOK_array ho hc (visitorOK hr e).1
    ⟨h, membersOK_last ho hc h⟩
  | .union l r => by
    have h : MembersOK K (visitor E c rec (.union l r)).members := by
      intro loc s hw
      refine Solves.bind (solves_makeNewShape ho hc hw (by simp)) fun m s1 hw1 _ hm => ?_
      refine Solves.bind ((visitorOK hr l).1 m none s1 hw1 hm facetsAt_none) fun _ s2 hw2 _ hm2 => ?_
      refine Solves.bind ((visitorOK hr r).2 loc s2 hw2) fun ms s3 hw3 g3 hms => Solves.ret hw3 fun x hx => ?_
      rcases List.mem_cons.1 hx with rfl | hx
      · exact g3.grown.isBase (done_isBase hm2)
      · exact hms x hx
    exact ⟨atOK_union ho hc h, h⟩

omit ho hc in
theorem solves_forEach {rec : Addr → M St Unit} (hr : RecOK K rec) : ∀ (l : List Addr) (s : St), Fit K s → (∀ x ∈ l, IsBase s x) → Solves K (M.forEach rec l) s fun _ s' => ∀ x ∈ l, Done s' x
  | [], s, hw, _ => Solves.ret hw (by simp)
  | a :: l, s, hw, hl => by
    refine Solves.bind (hr a s hw (hl a (by simp))) fun _ s1 hw1 g1 ha => ?_
    refine (solves_forEach hr l s1 hw1 fun x hx => g1.grown.isBase (hl x (by simp [hx]))).post fun _ s2 _ g2 h => fun x hx => ?_
    rcases List.mem_cons.1 hx with rfl | hx
    · exact g2.done _ ha
    · exact h x hx

theorem resolveStepOK {rec : Addr → M St Unit} (hr : RecOK K rec) : RecOK K (resolveStep E c rec) := by
  intro a s hw ha
  unfold resolveStep
  refine Solves.bind (Runs.solves (Runs.getBase hw ha)) fun b s1 hw1 _ ⟨e, hb, hbf⟩ => ?_
  subst e
  cases hsh : b.shape with
  | none => exact Solves.err hw
  | some sh =>
    have hdone : ¬ IsUnknown sh → Solves K (M.ret ()) s1 fun _ s' => Done s' a := fun h => Solves.ret hw ⟨b, sh, hb, hsh, h⟩
    cases sh with
    | unknown facets =>
      have hf : FacetsAt E s1 a facets := by
        intro b' fs hb' e
        rw [hb] at hb'; cases hb'
        exact hbf.facets fs (by rw [hsh, e])
      simp only
      cases hl : b.link with
      | some dt =>
        have hdt : dt < s1.dts.length := hbf.ptrs.link dt hl
        obtain ⟨l, hl1, hl2⟩ := (hw.dt _ (List.getElem_mem hdt)).shape
        refine Tame.congr (m := M.bind (rec l) fun _ => M.bind (Heap.getBase l) fun lb => makeConcrete E c a lb.type facets)
          (by simp [resolveLink, List.getElem?_eq_getElem hdt, hl1]) ?_
        refine Solves.bind (hr l s1 hw hl2) fun _ s2 hw2 g2 hd2 => ?_
        refine Solves.bind (Runs.solves (Runs.getBase hw2 (done_isBase hd2))) fun lb s3 hw3 _ ⟨e, hlb, _⟩ => ?_
        subst e
        exact solves_makeConcrete ho hc hw2 (g2.grown.isBase ha) (Done.known hw2 hd2 hlb) (hf.grow ha g2.grown)
      | none =>
        simp only
        split
        · rename_i hcomp
          have hne := hbf.parents facets hsh hcomp
          unfold resolveMultipleInheritance
          refine Solves.bind (Runs.solves (Runs.getBase hw ha)) fun b' s2 hw2 _ ⟨e, hb', _⟩ => ?_
          subst e
          rw [hb] at hb'; cases hb'
          cases hs : s2.slice b.inherits with
          | nil => exact absurd hs hne
          | cons i rest =>
            refine Tame.congr (m := M.bind (M.forEach rec (i :: rest)) fun _ => M.bind (Heap.getBase i) fun ib => makeConcrete E c a ib.type facets) (by simp [hs]) ?_
            refine Solves.bind (solves_forEach hr (i :: rest) s2 hw fun x hx => hw.sliceOf (by rw [hs]; exact hx)) fun _ s3 hw3 g3 hd3 => ?_
            have hi := hd3 i (by simp)
            refine Solves.bind (Runs.solves (Runs.getBase hw3 (done_isBase hi))) fun ib s4 hw4 _ ⟨e, hib, _⟩ => ?_
            subst e
            exact solves_makeConcrete ho hc hw3 (g3.grown.isBase ha) (Done.known hw3 hi hib) (hf.grow ha g3.grown)
        · cases parseTypeExpression b.type with
          | none => exact Solves.err hw
          | some tree => exact (visitorOK ho hc hr tree).1 a facets s1 hw ha hf
    | _ => exact hdone fun ⟨_, h⟩ => by cases h

end

theorem resolveShapeOK (ho : Orderly E) : ∀ n, RecOK K (resolveShape E n)
  | 0 => fun _ _ hw _ => Solves.diverge hw
  | n + 1 => resolveStepOK ho (callsOK ho n) (resolveShapeOK ho n)

theorem resolveLoopOK (ho : Orderly E) (n : Nat) : ∀ (m : Nat) (good : Bool) (s : St), Fit K s → Solves K (resolveLoop E n m good) s fun _ _ => True := by
  intro m
  induction m with
  | zero =>
    intro good s hw
    cases hu : s.unresolved with
    | nil =>
      cases good with
      | true => exact Tame.congr (m := M.ret ()) (by simp [resolveLoop, hu, M.ret]) (Solves.ret hw trivial)
      | false => exact Tame.congr (m := M.err "resolve shape") (by simp [resolveLoop, hu, M.err]) (Solves.err hw)
    | cons a l => exact Tame.congr (m := M.diverge) (by simp [resolveLoop, hu, M.diverge]) (Solves.diverge hw)
  | succ m ih =>
    intro good s hw
    cases hu : s.unresolved with
    | nil =>
      cases good with
      | true => exact Tame.congr (m := M.ret ()) (by simp [resolveLoop, hu, M.ret]) (Solves.ret hw trivial)
      | false => exact Tame.congr (m := M.err "resolve shape") (by simp [resolveLoop, hu, M.err]) (Solves.err hw)
    | cons a l =>
      refine Tame.congr (m := M.bind (M.attempt (resolveShape E n a)) fun r => M.bind (M.modify fun h => { h with unresolved := h.unresolved.tail }) fun _ =>
        resolveLoop E n m (good && (match r with | .ok _ => true | .error _ => false))) (by rw [resolveLoop]; simp only [hu]; rfl) ?_
      refine Solves.bind (Tame.attempt (resolveShapeOK ho n a s hw (hw.unresolved a (by rw [hu]; simp)))) fun r s1 hw1 _ _ => ?_
      have g : Dec none_ s1 { s1 with unresolved := s1.unresolved.tail } :=
        dec_of rfl ⟨Nat.le_refl _, Nat.le_refl _, Nat.le_refl _, Nat.le_refl _, Nat.le_refl _, Nat.le_refl _, Nat.le_refl _, Nat.le_refl _⟩ List.prefix_rfl
      have hw2 : Fit K { s1 with unresolved := s1.unresolved.tail } := hw1.grow g.grown (fun _ _ h => .inl h) (fun _ h => .inl h) (fun _ h => .inl h) (fun _ h => .inl h) (fun _ h => .inl h)
        (fun _ h => .inl h) (fun _ h => .inl h) (fun _ h => .inl h) (fun _ h => .inl h) (fun _ h => .inl (List.mem_of_mem_tail h))
      refine Solves.bind (Q := fun _ _ => True) (Tame.of (x := ()) (s' := { s1 with unresolved := s1.unresolved.tail }) rfl hw2 (g.res fun _ h => h.elim) trivial) fun _ s2 hw2 _ _ => ih _ s2 hw2

/-- Resolving annotations. -/
structure Ann (s s' : St) : Prop where
  res : Res s s'
  exts : s'.domainExts.length = s.domainExts.length

theorem Ann.refl (s : St) : Ann s s := ⟨.refl s, rfl⟩

theorem Ann.trans {s t u : St} (h : Ann s t) (k : Ann t u) : Ann s u := ⟨h.res.trans k.res, k.exts.trans h.exts⟩

theorem resolveExtOK {i : Nat} (hw : Fit K s) (hi : i < s.domainExts.length) : Tame Unlinked (Fit K) Ann (resolveDomainExtension i) s fun _ _ => True := by
  obtain ⟨hg1, hg2⟩ := getReferenced_fit (sel := Lib.annotationTypes) (n := s.domainExts[i].name) (loc := s.domainExts[i].location) hw fun l hl => (hw.lib l hl).annotationTypes
  refine Tame.congr (m := M.bind (M.lift (getReferenced s Lib.annotationTypes s.domainExts[i].name s.domainExts[i].location)) fun ref =>
    M.modify fun h => { h with domainExts := h.domainExts.modify i fun de => { de with definedBy := some ref } }) (by simp [resolveDomainExtension, List.getElem?_eq_getElem hi]) ?_
  refine Tame.bind' (R1 := Ann) (R2 := Ann) (Q := fun ref s' => s' = s ∧ IsBase s ref) (Tame.lift (.refl _) hw hg1 fun x hx => ⟨rfl, hg2 x hx⟩) (fun ref s2 hw2 _ ⟨e, href⟩ => ?_)
    (fun _ h => h) fun _ _ h k => h.trans k
  subst e
  have g : Dec none_ s2 { s2 with domainExts := s2.domainExts.modify i fun de => { de with definedBy := some ref } } :=
    dec_of rfl ⟨Nat.le_refl _, Nat.le_refl _, Nat.le_refl _, Nat.le_refl _, Nat.le_refl _, Nat.le_refl _, Nat.le_refl _, Nat.le_refl _⟩ List.prefix_rfl
  refine Tame.of (x := ()) (s' := { s2 with domainExts := s2.domainExts.modify i fun de => { de with definedBy := some ref } }) rfl ?_ ⟨g.res fun _ h => h.elim, by simp⟩ trivial
  refine hw.grow g.grown (fun _ _ h => .inl h) (fun _ h => .inl h) (fun _ h => .inl h) (fun _ h => .inl h) (fun _ h => .inl h)
        (fun _ h => .inl h) (fun _ h => .inl h) (fun _ h => .inl h) (fun d h => ?_) (fun _ h => .inl h)
  rcases Whole.mem_modify h with h | ⟨y, h1, _, rfl⟩
  · exact .inl h
  · exact .inr (hw.exts y h1)

theorem resolveExtLoopOK : ∀ (l : List Nat) (good : Bool) (s : St), Fit K s → (∀ i ∈ l, i < s.domainExts.length) → Tame Unlinked (Fit K) Ann (resolveExtLoop l good) s fun _ _ => True
  | [], good, s, hw, _ => by
    cases good with
    | true => exact Tame.of (x := ()) (s' := s) rfl hw (.refl s) trivial
    | false => exact ⟨hw, .refl s, trivial⟩
  | i :: rest, good, s, hw, hl => by
    unfold resolveExtLoop
    exact Tame.bind' (R1 := Ann) (R2 := Ann) (Tame.attempt (resolveExtOK hw (hl i (by simp))))
      (fun r s1 hw1 g1 _ => resolveExtLoopOK rest _ s1 hw1 fun j hj => by rw [g1.exts]; exact hl j (by simp [hj])) (fun _ h => h) fun _ _ h k => h.trans k

/-! ## Parsing -/

theorem decodeEntryOK (ho : Orderly E) {n : Nat} {text path : String} (hw : Fit K s) (hf : E.file path = some text) : Solves K (decodeEntry E n text path) s fun _ _ => True := by
  unfold decodeEntry
  refine Solves.bind (Q := fun head s' => s' = s ∧ readHead text = .ok head) (Tame.lift (.refl s) hw (fun e h => (calm_readHead.ne e h).elim) fun _ h => ⟨rfl, h⟩) fun head s1 hw1 _ ⟨e, hh⟩ => ?_
  subst e
  refine Solves.bind (Q := fun kind s' => s' = s1 ∧ identifyFragment head = .ok kind) (Tame.lift (.refl s1) hw (fun e h => (calm_identifyFragment.ne e h).elim) fun _ h => ⟨rfl, h⟩)
    fun kind s2 hw2 _ ⟨e, hk⟩ => ?_
  subst e
  have hok : OfKind E path kind := ⟨text, hf, .inr ((Props.c55_fragment_kind text kind).1 (by rw [hh]; exact hk))⟩
  cases kind with
  | library => exact Solves.bind (Runs.solves (runs_decodeLibrary ho (callsOK ho n) hw hf hok)) fun i s3 hw3 _ _ => Solves.ret hw3 trivial
  | dataType => exact Solves.bind (Runs.solves (runs_decodeDataType ho (callsOK ho n) hw hf hok)) fun i s3 hw3 _ _ => Solves.ret hw3 trivial
  | namedExample => exact Solves.bind (Runs.solves (runs_decodeNamedExample ho hw hf hok)) fun i s3 hw3 _ _ => Solves.ret hw3 trivial

theorem fit_empty : Fit K {} where
  base a b h := by simp [St.base] at h
  props _ h := by simp at h
  patProps _ h := by simp at h
  slices _ h := by simp at h
  fmaps _ h := by simp at h
  lib _ h := by simp at h
  dt _ h := by simp at h
  frags _ h := by simp at h
  exts _ h := by simp at h
  unresolved _ h := by simp at h

theorem parseOK (K : Vals E) (ho : Orderly E) (n m : Nat) (path : String) : Solves K (parseFromPath E n m path) {} fun _ _ => True := by
  unfold parseFromPath
  cases hf : E.file path with
  | none => exact Solves.err fit_empty
  | some text =>
    show Solves K (parseFragment E n m text path) {} _
    unfold parseFragment
    refine Solves.bind (decodeEntryOK ho fit_empty hf) fun f s1 hw1 _ _ => ?_
    refine Solves.bind (resolveLoopOK ho n m true s1 hw1) fun _ s2 hw2 _ _ => ?_
    refine Solves.bind (Q := fun _ _ => True) ?_ fun _ s3 hw3 _ _ => Solves.ret hw3 trivial
    exact Tame.congr (m := resolveExtLoop (List.range s2.domainExts.length) true) rfl
      ((resolveExtLoopOK _ true s2 hw2 fun i hi => by simpa using hi).move fun _ _ h => h.res)

end GoRaml.Tame
