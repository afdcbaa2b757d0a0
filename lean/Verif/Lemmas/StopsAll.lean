import Verif.Lemmas.StopsMark
import Verif.Model.UnwrapAll

/-!
# Unwrapping a model without unions and custom facets stops (C79)
-/

namespace GoRaml.Stops

open GoRaml

section
variable {α β : Type} {I : St → Prop} {s : St}

theorem Halts.attempt {m : Nat → Nat → M St α} (h : Halts I m s) : Halts I (fun n l => M.attempt (m n l)) s := by
  obtain ⟨N, ⟨o, s'⟩, h1, h2, h3⟩ := h
  cases o with
  | ok x => exact ⟨N, (.ok (.ok x), s'), fun n l hn hl => by simp only [M.attempt, h1 n l hn hl], by simp, h3⟩
  | err e => exact ⟨N, (.ok (.error e), s'), fun n l hn hl => by simp only [M.attempt, h1 n l hn hl], by simp, h3⟩
  | panic e => exact ⟨N, (.panic e, s'), fun n l hn hl => by simp only [M.attempt, h1 n l hn hl], by simp, h3⟩
  | diverge => exact absurd rfl h2

theorem Halts.forEach {f : Nat → Nat → α → M St Unit} : ∀ (l : List α) {s : St}, I s → (∀ x ∈ l, ∀ s, I s → Halts I (fun n k => f n k x) s) → Halts I (fun n k => M.forEach (f n k) l) s
  | [], _, i, _ => .const (by simp [M.forEach, M.ret]) i
  | x :: l, s, i, h => .bind (h x List.mem_cons_self s i) (fun _ h => h) fun _ s' i' _ => Halts.forEach l i' fun y hy => h y (List.mem_cons_of_mem _ hy)

theorem Halts.tryEach {f : Nat → Nat → α → M St Unit} : ∀ (l : List α) {s : St}, I s → (∀ x ∈ l, ∀ s, I s → Halts I (fun n k => f n k x) s) → Halts I (fun n k => M.tryEach (f n k) l) s
  | [], _, i, _ => .const (by simp [M.tryEach, M.ret]) i
  | x :: l, s, i, h => by
    refine .bind (h x List.mem_cons_self s i).attempt (fun _ h => h) fun r s' i' _ => ?_
    refine .bind (Halts.tryEach l i' fun y hy => h y (List.mem_cons_of_mem _ hy)).attempt (fun _ h => h) fun rs s'' i'' _ => ?_
    cases r <;> cases rs
    all_goals exact .const (by simp [M.err, M.ret]) i''

theorem Halts.base {a : Addr} {f : Nat → Nat → Base → M St β} (i : I s) (k : ∀ b, Halts I (fun n l => f n l b) s) : Halts I (fun n l => M.bind (Heap.getBase a) (f n l)) s := by
  cases hb : s.base a with
  | none => exact .congr (.const (m := M.panic "nil pointer dereference") (by simp [M.panic]) i) fun n l => by simp [M.bind, Heap.getBase, hb, M.panic]
  | some b => exact .congr (k b) fun n l => bind_first (by simp [Heap.getBase, hb])

end

section
variable {D : Zone} {s : St}

theorem type_halts (hD : D.Fair) (i : Inv D s) (a : Addr) : Halts (Inv D) (fun n _ => unwrap n a) s := (unwrap_halts hD _ s i (Nat.lt_succ_self _) a).mono fun _ h => h.1.1

theorem tables_halts {α : Type} {m : M St α} {x : α} {s' : St} (i : Inv D s) (hm : m s = (.ok x, s')) (h1 : s'.bases = s.bases) (h2 : s'.pmaps = s.pmaps) :
    Halts (Inv D) (fun _ _ => m) s :=
  (Runs.halts (Runs.tables i hm h1 fun j _ => by simp only [St.props, h2])).mono fun _ h => h.1

theorem unwrapType_halts {c : Sect} {j : Nat} {loc : String} {ka : String × Addr} (hD : D.Fair) (i : Inv D s) : Halts (Inv D) (fun n _ => unwrapType n c j loc ka) s := by
  unfold unwrapType
  refine .bind (type_halts hD i _) (fun _ h => h) fun us s1 i1 _ => ?_
  refine .bind (tables_halts i1 rfl rfl rfl) (fun _ h => h) fun _ s2 i2 _ => ?_
  refine .base i2 fun b => ?_
  cases c
  · exact tables_halts i2 rfl rfl rfl
  · exact tables_halts i2 rfl rfl rfl

theorem unwrapFragment_halts {f : FragRef} (hD : D.Fair) (i : Inv D s) : Halts (Inv D) (fun n _ => unwrapFragment n f) s := by
  cases f with
  | library j =>
    cases hl : s.libs[j]? with
    | none => exact .congr (.const (m := M.panic "nil pointer dereference") (by simp [M.panic]) i) fun n l => by simp only [unwrapFragment, hl]; rfl
    | some lib =>
      refine .congr (m := fun n _ => unwrapLibrary n j lib) ?_ fun n l => by simp only [unwrapFragment, hl]
      have types : ∀ c s, Inv D s → Halts (Inv D) (fun n _ => unwrapTypes n c j lib) s := fun c s i => Halts.tryEach (f := fun n _ => unwrapType n c j lib.location) _ i fun x _ s i => unwrapType_halts hD i
      refine .congr (m := fun n _ => M.tryEach (fun c => unwrapTypes n c j lib) [.annotationTypes, .types]) ?_ fun n l => rfl
      exact Halts.tryEach (f := fun n _ c => unwrapTypes n c j lib) _ i fun c _ s i => types c s i
  | dataType j =>
    cases hd : s.dts[j]? with
    | none => exact .congr (.const (m := M.panic "nil pointer dereference") (by simp [M.panic]) i) fun n l => by simp only [unwrapFragment, hd]; rfl
    | some d =>
      refine .congr (m := fun n _ => unwrapDataType n j d) ?_ fun n l => by simp only [unwrapFragment, hd]
      unfold unwrapDataType
      cases hs : d.shape with
      | none => exact .const (by simp [M.err]) i
      | some a =>
        refine .bind (type_halts hD i _) (fun _ h => h) fun us s1 i1 _ => ?_
        refine .bind (tables_halts i1 rfl rfl rfl) (fun _ h => h) fun _ s2 i2 _ => ?_
        exact .base i2 fun b => tables_halts i2 rfl rfl rfl
  | namedExample j => exact .const (by simp [unwrapFragment]) i

/-- The first part. -/
theorem unwrapFragments_halts {frags : List FragRef} (hD : D.Fair) (i : Inv D s) : Halts (Inv D) (fun n _ => unwrapFragments n frags) s :=
  Halts.tryEach (f := fun n _ => unwrapFragment n) _ i fun _ _ _ i => unwrapFragment_halts hD i

/-- Nothing but the custom facets matters for marking. -/
theorem Inv.bare (hD : ∀ i, D.defs i → D.empty i) (i : Inv D s) : Bare s s := ⟨fun a b hb => by
  cases hf : b.facetDefs with
  | none => rfl
  | some j => exact i.none j (hD j (i.defs a b j hb hf)), fun _ h => h⟩

theorem mark_halts {s0 : St} (i : Bare s0 s) (a : Addr) : Halts (Bare s0) (fun n _ => mark n a) s := by
  have h := mark_marks (live s + 1) a s0 s i (Nat.lt_succ_self _)
  exact ⟨live s + 1, _, fun n _ hn _ => Fuel.mark_at _ _ hn a s h.1, h.1, h.2.1⟩

theorem markFragment_halts {s0 : St} {f : FragRef} (i : Bare s0 s) : Halts (Bare s0) (fun n _ => markFragment n f) s := by
  have one : ∀ s a, Bare s0 s → Halts (Bare s0) (fun n _ => M.bind (mark n a) fun _ => M.ret ()) s := fun s a i =>
    .bind (mark_halts i a) (fun _ h => h) fun _ _ i' _ => .const (by simp [M.ret]) i'
  cases f with
  | library j =>
    cases hl : s.libs[j]? with
    | none => exact .congr (.const (m := M.panic "nil pointer dereference") (by simp [M.panic]) i) fun n l => by simp only [markFragment, hl]; rfl
    | some lib =>
      refine .congr (m := fun n _ => M.forEach (fun ka => M.bind (mark n ka.2) fun _ => M.ret ()) (lib.annotationTypes ++ lib.types)) ?_ fun n l => by simp only [markFragment, hl]
      exact Halts.forEach _ i fun x _ s i => one s x.2 i
  | dataType j =>
    cases hd : (s.dts[j]?).bind (·.shape) with
    | none => exact .congr (.const (m := M.panic "nil pointer dereference") (by simp [M.panic]) i) fun n l => by simp only [markFragment, hd]; rfl
    | some a => exact .congr (one s a i) fun n l => by simp only [markFragment, hd]
  | namedExample j => exact .const (by simp [markFragment]) i

/-- The second part. -/
theorem markFragments_halts {s0 : St} {frags : List FragRef} (i : Bare s0 s) : Halts (Bare s0) (fun n _ => markFragments n frags) s :=
  Halts.forEach (f := fun n _ => markFragment n) _ i fun _ _ _ i => markFragment_halts i

/-- The third part. -/
theorem unwrapDomainExtensions_halts : Halts (fun _ => True) (fun _ _ => unwrapDomainExtensions) s := by
  refine Halts.tryEach (I := fun _ => True) (f := fun _ _ => unwrapDomainExtension) _ trivial fun k _ s _ => .const ?_ trivial
  unfold unwrapDomainExtension
  split
  · simp
  · rename_i db _
    cases hg : getTypeFrom s.fragAnnotationTypes db.location db.name with
    | ok x => simp [M.bind, M.lift, hg, M.modify]
    | err e => simp [M.bind, M.lift, hg]
    | panic e => simp [M.bind, M.lift, hg]
    | diverge =>
      unfold getTypeFrom at hg
      split at hg <;> cases hg

/-- All parts. -/
theorem unwrapShapes_halts {frags frags' : List FragRef} (hD : ∀ i, D.defs i → D.empty i) (i : Inv D s) : Halts (fun _ => True) (fun n _ => unwrapShapes n frags frags') s := by
  unfold unwrapShapes
  refine .bind (tables_halts i rfl rfl rfl) (fun _ _ => trivial) fun _ s1 i1 _ => ?_
  refine .bind (unwrapFragments_halts (.inl hD) i1) (fun _ _ => trivial) fun _ s2 i2 _ => ?_
  exact .bind (markFragments_halts (i2.bare hD)) (fun _ _ => trivial) fun _ s3 _ _ => unwrapDomainExtensions_halts
end

end GoRaml.Stops
