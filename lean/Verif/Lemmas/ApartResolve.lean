import Verif.Lemmas.ApartDecode
import Verif.Model.Parse

/-!
# Parsed types share no parts: resolving references, and whole documents
-/

namespace GoRaml.Apart

open GoRaml GoRaml.Spec

variable {E : Env} {c : Calls} {k : Mark} {s : St} {a : Addr}

theorem Head.referred {x : Addr} (h : Head s x) : ReferredTo s x := by
  obtain ⟨l, hl, e, he, rfl⟩ := h
  exact .type hl he

theorem lookupUsed_head {uses : OMap (String × Option Nat)} {b q : String} (h : lookupUsed s uses Lib.types b q = .ok a) : Head s a := by
  unfold lookupUsed at h
  split at h
  · cases h
  · split at h
    · cases h
    · rename_i l hl
      split at h
      · cases h
      · rename_i hx
        obtain ⟨i, _, hl⟩ := Option.bind_eq_some_iff.1 hl
        cases h
        exact ⟨_, List.mem_of_getElem? hl, _, OMap.mem_of_get hx, rfl⟩

theorem getReferenced_head {t loc : String} (h : getReferenced s Lib.types t loc = .ok a) : Head s a := by
  have own : ∀ {i : Nat} {l : Lib} {r : Addr}, s.libs[i]? = some l → OMap.get l.types t = some r → Head s r := fun hl hr =>
    ⟨_, List.mem_of_getElem? hl, _, OMap.mem_of_get hr, rfl⟩
  unfold getReferenced at h
  split at h
  · cases h
  · split at h
    · cases h
    · rename_i l hl
      unfold Lib.getReference at h
      simp only at h
      split at h
      · split at h
        · cases h
        · rename_i hx; cases h; exact own hl hx
      · split at h
        · rename_i hx; cases h; exact own hl hx
        · exact lookupUsed_head h
  · split at h
    · cases h
    · unfold DT.getReference at h
      simp only at h
      split at h
      · cases h
      · exact lookupUsed_head h
  · cases h

/-- Resolving keeps the types apart. -/
abbrev RecOwn (rec : Addr → M St Unit) : Prop := ∀ a s, I s → Own (mark s) (rec a) s fun _ _ => True

/-- What the visitor does with a tree. -/
structure VisitorOwn (v : Visitor) : Prop where
  at_ : ∀ a fs s, I s → Own (mark s) (v.at_ a fs) s fun _ _ => True
  members : ∀ loc s, I s → Own (mark s) (v.members loc) s fun ms s' => ms.Nodup ∧ ∀ x ∈ ms, New (mark s) s' x

variable (hc : CallsOwn c)
include hc

theorem makeNewShape_own {n t loc : String} (hi : I s) (hk : k.Le (mark s)) : Own k (makeNewShape E c n t loc) s fun a s' => New (mark s) s' a ∧ R (mark s) s s' := by
  unfold makeNewShape
  refine .bind (Own.makeBaseShape hi hk) fun a s1 i1 r1 ⟨h1, f1⟩ => ?_
  exact .bind ((makeConcrete_own hc i1 (.refl _)).call (hk.trans r1.grows)) fun _ s2 i2 r2 ⟨_, f2⟩ => .ret i2 ⟨h1.keep f2, f1.trans (f2.mono f1.grows)⟩

omit hc in
theorem appendInherits_own {ref : Addr} (hi : I s) (hr : ReferredTo s ref) : Own k (appendInherits a ref) s fun _ _ => True := by
  cases hb : s.base a with
  | none => exact .congr (m := M.panic "nil pointer dereference") (by simp [appendInherits, hb, M.panic]) (.panic hi)
  | some b =>
    refine .congr (m := M.bind (Heap.newSlice (s.slice b.inherits ++ [ref])) fun i => Heap.updBase a fun b => { b with inherits := some i }) (by simp [appendInherits, hb]) ?_
    have h0 : ∀ x ∈ s.slice b.inherits ++ [ref], ReferredTo s x := fun x hx => by
      rcases List.mem_append.1 hx with hx | hx
      · cases hj : b.inherits with
        | none => rw [hj] at hx; simp [St.slice] at hx
        | some j =>
          rw [hj] at hx
          cases hl : s.slices[j]? with
          | none => simp [St.slice, hl] at hx
          | some l => exact .parent hb hj hl (by simpa [St.slice, hl] using hx)
      · cases List.mem_singleton.1 hx; exact hr
    refine .bind (Q := fun i s' => i < s'.slices.length ∧ s'.slices[i]? = some (s.slice b.inherits ++ [ref]) ∧ ∀ x, ReferredTo s x → ReferredTo s' x)
      (Own.of (x := s.slices.length) rfl
        (more (k := k) (s' := { s with slices := s.slices ++ [s.slice b.inherits ++ [ref]] }) hi rfl (.refl _) rfl rfl (fun _ _ h => .inl h) (fun _ _ h => .inl h) ⟨[_], rfl⟩).1
        (more (k := k) (s' := { s with slices := s.slices ++ [s.slice b.inherits ++ [ref]] }) hi rfl (.refl _) rfl rfl (fun _ _ h => .inl h) (fun _ _ h => .inl h) ⟨[_], rfl⟩).2
        ⟨by simp, by simp, fun x hx => ?_⟩) fun i s1 i1 r1 ⟨h1, h2, h3⟩ => (Own.upd i1 fun b' _ => ?_).true
    · cases hx with
      | type k1 k2 => exact .type k1 k2
      | annotationType k1 k2 => exact .annotationType k1 k2
      | dataType k1 k2 => exact .dataType k1 k2
      | «alias» k1 k2 => exact .alias k1 k2
      | parent k1 k2 k3 k4 => exact .parent k1 k2 ((List.getElem?_append_left (List.getElem?_eq_some_iff.1 k3).1).trans k3) k4
    · exact ⟨fun _ _ _ _ => .inl rfl, fun _ _ _ => .inl rfl, fun _ _ _ _ => .inl rfl, fun _ _ _ _ => .inl rfl, fun _ _ => .inl rfl, fun _ _ => .inl rfl,
        fun j e => .inr (by cases e; exact ⟨h1, fun l' e' x hx => by cases h2.symm.trans e'; exact .inl (h3 x (h0 x hx))⟩), .inl rfl, rfl, rfl⟩

theorem visitReference_own {rec : Addr → M St Unit} (hrec : RecOwn rec) {text : String} {fs : Option (List YNode)} (hi : I s) :
    Own (mark s) (visitReference E c rec text a fs) s fun _ _ => True := by
  unfold visitReference
  refine .bind (Own.getBase hi) fun t s1 i1 _ ⟨e, _⟩ => ?_
  subst e
  refine .congr (m := M.bind (M.lift (getReferenced s1 Lib.types text t.location)) fun ref =>
    M.bind (Heap.getBase ref) fun refBase =>
    if refBase.id = t.id then M.err "self recursion"
    else
      M.bind (rec ref) fun _ =>
      M.bind (Heap.getBase ref) fun refBase =>
      M.bind (makeConcrete E c a refBase.type fs) fun _ =>
      M.bind (Heap.updBase a fun b => { b with typeLabel := text }) fun _ =>
      match fs with
      | none => Heap.updBase a fun b => { b with «alias» := some ref }
      | some _ => appendInherits a ref) rfl ?_
  refine .bind (Q := fun x s' => s' = s1 ∧ Head s1 x) (.lift i1 fun x hx => ⟨rfl, getReferenced_head hx⟩) fun ref s2 i2 _ ⟨e, hr⟩ => ?_
  subst e
  refine .bind (Own.getBase i2) fun rb s3 i3 _ ⟨e, _⟩ => ?_
  subst e
  refine Own.ite (.err i3) ?_
  refine .bind (hrec ref s3 i3) fun _ s4 i4 r4 _ => .bind (Own.getBase i4) fun rb s5 i5 _ ⟨e, _⟩ => ?_
  subst e
  refine .bind (makeConcrete_own hc i5 r4.grows) fun _ s6 i6 r6 _ => .bind (quiet_own i6 fun _ => ⟨rfl, rfl, rfl, rfl, rfl, rfl⟩) fun _ s7 i7 r7 _ => ?_
  have hr7 := (r7.heads _ (r6.heads _ (r4.heads _ hr))).referred
  cases fs with
  | none =>
    exact (Own.upd (f := fun b => { b with «alias» := some ref }) i7 fun b' _ => ⟨fun _ _ _ _ => .inl rfl, fun _ _ _ => .inl rfl, fun _ _ _ _ => .inl rfl, fun _ _ _ _ => .inl rfl, fun _ _ => .inl rfl,
      fun x e => .inr (Option.some.inj e ▸ hr7), fun _ _ => .inl rfl, .inl rfl, rfl, rfl⟩).true
  | some l => exact appendInherits_own i7 hr7

omit hc in
theorem setAnyOf_own {ss : List Addr} (hi : I s) (hd : ss.Nodup) (hn : ∀ x ∈ ss, New k s x) : Own k (setAnyOf a ss) s fun _ _ => True := by
  unfold setAnyOf
  refine .bind (Own.newSlice hi) fun i s1 i1 r1 ⟨h1, h2, f1⟩ => (Own.upd (f := fun b => { b with shape := some (.union (some i) none) }) i1 fun b _ => ?_).true
  exact ⟨fun _ _ e _ => (by cases e), fun j e e' => .inr (by cases e'; exact ⟨h1, fun l' e' => (by cases h2.symm.trans e'; exact ⟨hd, fun x hx => (hn x hx).keep f1⟩)⟩),
    fun _ _ e _ => (by cases e), fun _ _ e _ => (by cases e), fun _ _ => .inl rfl, fun _ _ => .inl rfl, fun _ _ => .inl rfl, .inr ⟨rfl, rfl⟩, rfl, rfl⟩

theorem last_own {at_ : Addr → Option (List YNode) → M St Unit} (h : ∀ a fs s, I s → Own (mark s) (at_ a fs) s fun _ _ => True) : VisitorOwn (.last E c at_) :=
  ⟨h, fun loc s hi => .bind (makeNewShape_own hc hi (.refl _)) fun m s1 i1 r1 ⟨h1, _⟩ => .bind ((h m none s1 i1).call r1.grows) fun _ s2 i2 r2 ⟨_, f2⟩ =>
    .ret i2 ⟨by simp, fun x hx => by cases List.mem_singleton.1 hx; exact h1.keep f2⟩⟩

theorem visitUnion_own {members : String → M St (List Addr)} (h : ∀ loc s, I s → Own (mark s) (members loc) s fun ms s' => ms.Nodup ∧ ∀ x ∈ ms, New (mark s) s' x)
    {fs : Option (List YNode)} (hi : I s) : Own (mark s) (visitUnion E c members a fs) s fun _ _ => True := by
  unfold visitUnion
  refine .bind (Own.getBase hi) fun t s1 i1 _ ⟨e, _⟩ => ?_
  subst e
  refine .bind (makeConcrete_own hc i1 (.refl _)) fun _ s2 i2 r2 _ => .bind ((h _ s2 i2).call r2.grows) fun ss s3 i3 r3 ⟨⟨h1, h2⟩, _⟩ => ?_
  exact setAnyOf_own i3 h1 fun x hx => (h2 x hx).mono r2.grows

theorem visitOptional_own {v : Visitor} (h : VisitorOwn v) {fs : Option (List YNode)} (hi : I s) : Own (mark s) (visitOptional E c v a fs) s fun _ _ => True := by
  unfold visitOptional
  refine .bind (Own.getBase hi) fun t s1 i1 _ ⟨e, _⟩ => ?_
  subst e
  refine .bind (makeConcrete_own hc i1 (.refl _)) fun _ s2 i2 r2 _ => .bind (makeNewShape_own hc i2 r2.grows) fun m s3 i3 r3 ⟨h3, _⟩ => ?_
  refine .bind ((h.at_ m none s3 i3).call (r2.grows.trans r3.grows)) fun _ s4 i4 r4 ⟨_, f4⟩ => ?_
  refine .bind (makeNewShape_own hc i4 ((r2.grows.trans r3.grows).trans r4.grows)) fun n s5 i5 r5 ⟨h5, f5⟩ => ?_
  have hm := (h3.keep f4)
  refine setAnyOf_own i5 ?_ fun x hx => ?_
  · have h6 : m < n := Nat.lt_of_lt_of_le hm.2.there h5.1
    simp only [List.nodup_cons, List.mem_singleton, List.not_mem_nil, not_false_eq_true, List.nodup_nil, and_true]
    exact fun e => Nat.lt_irrefl _ (e ▸ h6)
  · rcases List.mem_cons.1 hx with rfl | hx
    · exact (hm.keep f5).mono r2.grows
    · cases List.mem_singleton.1 hx
      exact h5.mono ((r2.grows.trans r3.grows).trans r4.grows)

theorem visitArray_own {v : Visitor} (h : VisitorOwn v) {fs : Option (List YNode)} (hi : I s) : Own (mark s) (visitArray E c v a fs) s fun _ _ => True := by
  unfold visitArray
  refine .bind (Own.getBase hi) fun t s1 i1 _ ⟨e, _⟩ => ?_
  subst e
  refine .bind (makeConcrete_own hc i1 (.refl _)) fun _ s2 i2 r2 _ => .bind (makeNewShape_own hc i2 r2.grows) fun m s3 i3 r3 ⟨h3, _⟩ => ?_
  refine .bind ((h.at_ m none s3 i3).call (r2.grows.trans r3.grows)) fun _ s4 i4 r4 ⟨_, f4⟩ => ?_
  refine .congr (m := setArray a { arrayAt s4 a with items := some m }) rfl ?_
  refine (Own.upd i4 fun b hb => ?_).true
  split
  · exact ShapeMine.ok (sh := .array { arrayAt s4 a with items := some m }) (fun x e => by cases e; exact ((h3.keep f4).mono r2.grows).mine _) rfl rfl rfl rfl rfl rfl
  · exact Quiet.ok ⟨rfl, rfl, rfl, rfl, rfl, rfl⟩

theorem visitor_own {rec : Addr → M St Unit} (hrec : RecOwn rec) : ∀ t : Rdt, VisitorOwn (visitor E c rec t)
  | .prim p => last_own hc fun _ _ _ hi => (makeConcrete_own hc hi (.refl _)).true
  | .ref x y => last_own hc fun _ _ _ hi => visitReference_own hc hrec hi
  | .group e => last_own hc (visitor_own hrec e).at_
  | .optional e => last_own hc fun _ _ _ hi => visitOptional_own hc (visitor_own hrec e) hi
  | .array e => last_own hc fun _ _ _ hi => visitArray_own hc (visitor_own hrec e) hi
  | .union l r => by
    have hl := visitor_own hrec l
    have hr := visitor_own hrec r
    have hm : ∀ loc s, I s → Own (mark s) ((visitor E c rec (.union l r)).members loc) s fun ms s' => ms.Nodup ∧ ∀ x ∈ ms, New (mark s) s' x := fun loc s hi => by
      refine .bind (makeNewShape_own hc hi (.refl _)) fun m s1 i1 r1 ⟨h1, _⟩ => .bind ((hl.at_ m none s1 i1).call r1.grows) fun _ s2 i2 r2 ⟨_, f2⟩ => ?_
      refine .bind ((hr.members loc s2 i2).call (r1.grows.trans r2.grows)) fun ms s3 i3 r3 ⟨⟨h2, h3⟩, f3⟩ => .ret i3 ⟨List.nodup_cons.2 ⟨fun hx => ?_, h2⟩, fun x hx => ?_⟩
      · exact absurd (h3 _ hx).1 (Nat.not_le.2 (h1.keep f2).2.there)
      · rcases List.mem_cons.1 hx with rfl | hx
        · exact (h1.keep f2).keep f3
        · exact (h3 x hx).mono (r1.grows.trans r2.grows)
    exact ⟨fun a fs s hi => visitUnion_own hc hm hi, hm⟩

omit hc in
theorem forEach_own {rec : Addr → M St Unit} (hrec : RecOwn rec) : ∀ (l : List Addr) (s : St), I s → k.Le (mark s) → Own k (M.forEach rec l) s fun _ _ => True
  | [], _, hi, _ => .ret hi trivial
  | x :: rest, s, hi, hk => .bind ((hrec x s hi).call hk) fun _ s1 i1 r1 _ => forEach_own hrec rest s1 i1 (hk.trans r1.grows)

theorem resolveStep_own {rec : Addr → M St Unit} (hrec : RecOwn rec) (hi : I s) : Own (mark s) (resolveStep E c rec a) s fun _ _ => True := by
  unfold resolveStep
  refine .bind (Own.getBase hi) fun b s1 i1 _ ⟨e, _⟩ => ?_
  subst e
  split
  · exact .err i1
  · rename_i fs _
    split
    · rename_i dt _
      cases hd : (s1.dts[dt]?).bind (·.shape) with
      | none => exact .congr (m := M.panic "nil pointer dereference") (by simp [resolveLink, hd, M.panic]) (.panic i1)
      | some l =>
        refine .congr (m := M.bind (rec l) fun _ => M.bind (Heap.getBase l) fun lb => makeConcrete E c a lb.type fs) (by simp [resolveLink, hd]) ?_
        refine .bind (hrec l s1 i1) fun _ s2 i2 r2 _ => .bind (Own.getBase i2) fun lb s3 i3 _ ⟨e, _⟩ => ?_
        subst e
        exact (makeConcrete_own hc i3 r2.grows).true
    split
    · unfold resolveMultipleInheritance
      refine .bind (Own.getBase i1) fun b s2 i2 _ ⟨e, _⟩ => ?_
      subst e
      refine .congr (m := M.bind (M.forEach rec (s2.slice b.inherits)) fun _ =>
        match (s2.slice b.inherits).head? with
        | none => M.panic "index out of range"
        | some i => M.bind (Heap.getBase i) fun ib => makeConcrete E c a ib.type fs) rfl ?_
      refine .bind (forEach_own hrec _ _ i2 (.refl _)) fun _ s3 i3 r3 _ => ?_
      split
      · exact .panic i3
      · refine .bind (Own.getBase i3) fun lb s4 i4 _ ⟨e, _⟩ => ?_
        subst e
        exact (makeConcrete_own hc i4 r3.grows).true
    split
    · exact .err i1
    · exact (visitor_own hc hrec _).at_ _ _ _ i1
  · exact .ret i1 trivial

omit hc in
theorem resolveShape_own : ∀ n : Nat, RecOwn (resolveShape E n)
  | 0 => fun _ _ hi => .diverge hi
  | n + 1 => fun _ _ hi => resolveStep_own (calls_own n) (resolveShape_own n) hi

omit hc in
theorem resolveLoop_own {n : Nat} : ∀ (m : Nat) (good : Bool) (s : St), I s → k.Le (mark s) → Own k (resolveLoop E n m good) s fun _ _ => True := by
  intro m
  induction m with
  | zero =>
    intro good s hi hk
    cases hu : s.unresolved with
    | nil =>
      cases good
      · exact .congr (m := M.err "resolve shape") (by simp [resolveLoop, hu, M.err]) (.err hi)
      · exact .congr (m := M.ret ()) (by simp [resolveLoop, hu, M.ret]) (.ret hi trivial)
    | cons a t => exact .congr (m := M.diverge) (by simp [resolveLoop, hu, M.diverge]) (.diverge hi)
  | succ m ih =>
    intro good s hi hk
    cases hu : s.unresolved with
    | nil =>
      cases good
      · exact .congr (m := M.err "resolve shape") (by simp [resolveLoop, hu, M.err]) (.err hi)
      · exact .congr (m := M.ret ()) (by simp [resolveLoop, hu, M.ret]) (.ret hi trivial)
    | cons a t =>
      refine .congr (m := M.bind (M.attempt (resolveShape E n a)) fun r =>
        M.bind (M.modify fun h => { h with unresolved := h.unresolved.tail }) fun _ =>
        resolveLoop E n m (good && (match r with | .ok _ => true | .error _ => false))) (by rw [resolveLoop]; simp only [hu]; rfl) ?_
      refine .bind ((resolveShape_own n a s hi).call hk).attempt fun r s1 i1 r1 _ => ?_
      refine .bind (Own.other (s := s1) (m := M.modify fun h => { h with unresolved := h.unresolved.tail }) (x := ()) rfl i1 rfl rfl rfl rfl rfl rfl).true fun _ s2 i2 r2 _ => ?_
      exact ih _ s2 i2 ((hk.trans r1.grows).trans r2.grows)

omit hc in
theorem resolveDomainExtension_own {i : Nat} (hi : I s) : Own k (resolveDomainExtension i) s fun _ _ => True := by
  cases hd : s.domainExts[i]? with
  | none => exact .congr (m := M.panic "index out of range") (by simp [resolveDomainExtension, hd, M.panic]) (.panic hi)
  | some de =>
    refine .congr (m := M.bind (M.lift (getReferenced s Lib.annotationTypes de.name de.location)) fun ref =>
      M.modify fun h => { h with domainExts := h.domainExts.modify i fun de => { de with definedBy := some ref } }) (by simp [resolveDomainExtension, hd]) ?_
    refine .bind (.pure hi) fun ref s1 i1 _ _ => ?_
    exact (Own.other (s := s1) (m := M.modify fun h => { h with domainExts := h.domainExts.modify i fun de => { de with definedBy := some ref } }) (x := ()) rfl i1 rfl rfl rfl rfl rfl rfl).true

omit hc in
theorem resolveExtLoop_own : ∀ (l : List Nat) (good : Bool) (s : St), I s → Own k (resolveExtLoop l good) s fun _ _ => True
  | [], good, _, hi => by
    unfold resolveExtLoop
    exact Own.ite (.ret hi trivial) (.err hi)
  | i :: rest, good, s, hi => .bind (resolveDomainExtension_own hi).attempt fun r s1 i1 _ _ => resolveExtLoop_own rest _ s1 i1

omit hc in
theorem parseFromPath_own {n m : Nat} {path : String} (hi : I s) : Own (mark s) (parseFromPath E n m path) s fun _ _ => True := by
  unfold parseFromPath
  split
  · exact .err hi
  · unfold parseFragment
    refine .bind (Q := fun _ _ => True) ?_ fun f s1 i1 r1 _ => .bind (resolveLoop_own _ _ _ i1 r1.grows) fun _ s2 i2 _ _ =>
      .bind (.congr (m := resolveExtLoop (List.range s2.domainExts.length) true) rfl (resolveExtLoop_own _ _ _ i2)) fun _ _ i3 _ _ => .ret i3 trivial
    unfold decodeEntry
    refine .bind (.pure hi) fun head s1 i1 r1 _ => .bind (.pure i1) fun kind s2 i2 r2 _ => ?_
    have hk := r1.grows.trans r2.grows
    split
    · exact .bind (decodeLibrary_own (calls_own n) i2 hk) fun _ _ i3 _ _ => .ret i3 trivial
    · exact .bind (decodeDataType_own (calls_own n) i2 hk) fun _ _ i3 _ _ => .ret i3 trivial
    · exact .bind (decodeNamedExample_own i2) fun _ _ i3 _ _ => .ret i3 trivial

omit hc in
/-- There is nothing in the empty model. -/
theorem init_own : I {} := by
  have h1 : ∀ p x, ¬ HeldAt {} p x := fun p x h => by cases h <;> simp_all [St.base]
  have h2 : ∀ x, ¬ ReferredTo {} x := fun x h => by cases h <;> simp_all [St.base]
  have h3 : ∀ u m, ¬ UsedFor {} u m := fun u m h => by cases h <;> simp_all [St.base]
  have h4 : ∀ a m, ¬ PatternsIn {} a m := fun a m ⟨_, _, h, _⟩ => by simp [St.base] at h
  exact ⟨⟨fun p q x h => absurd h (h1 _ _), fun p x h => absurd h (h1 _ _), fun u w m h => absurd h (h3 _ _), fun a a' m h => absurd h (h4 _ _)⟩, fun p x h => absurd h (h1 _ _),
    fun x h => absurd h (h2 _), fun u m h => absurd h (h3 _ _), fun a m h => absurd h (h4 _ _), fun a b j e h => by simp [St.base] at h, fun a b j h => by simp [St.base] at h,
    fun a b h => by simp [St.base] at h, fun m h => by simp at h, fun m h => by simp at h⟩

omit hc in
/-- The types of a parsed model share no parts; whether parsing succeeds does not matter. -/
theorem parsed_own {n m : Nat} {path : String} : I (parseFromPath E n m path {}).2 := by
  have h : Own (mark {}) (parseFromPath E n m path) {} fun _ _ => True := parseFromPath_own init_own
  unfold Own Tame.Tame at h
  exact h.1

end GoRaml.Apart
