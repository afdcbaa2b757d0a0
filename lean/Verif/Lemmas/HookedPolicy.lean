import Verif.Lemmas.HookedSim
import Verif.Lemmas.KinTop
import Verif.Spec.Hooked
import Verif.Spec.Commons
import Verif.Spec.ValidateAll
import Verif.Spec.Decode
import Verif.Spec.Load

/-!
# What hooks get to see
-/

namespace GoRaml.Hooked

open GoRaml GoRaml.Spec

theorem weaker_quiet {H : HookFn} (hi : InheritanceUnhooked H) : Weaker H (fun _ _ _ => .ok ()) where
  passes _ _ _ _ := rfl
  inherits key hk := by
    funext args h
    exact hi key args h (by simpa [inheritKeys] using hk)

theorem weaker_panicking {H : HookFn} (hi : InheritanceUnhooked H) : Weaker H (panicking H) where
  passes key args h hk := by simp only [panicking, hk]
  inherits key hk := by
    funext args h
    have := hi key args h (by simpa [inheritKeys] using hk)
    simp only [panicking, this]

/-! ## Validation -/

theorem out_bind_ok {α β : Type} {o : Out α} {f : α → Out β} {b : β} (h : o.bind f = .ok b) : ∃ a, o = .ok a ∧ f a = .ok b := by
  cases o with
  | ok a => exact ⟨a, rfl, h⟩
  | err e => cases h
  | panic e => cases h
  | diverge => cases h

theorem out_each_ok {α : Type} {f : α → Out Unit} : ∀ {l : List α} {u : Unit}, Out.forEach f l = .ok u → ∀ x ∈ l, f x = .ok ()
  | [], _, _, _, hx => by cases hx
  | y :: ys, u, h, x, hx => by
    obtain ⟨_, h1, h2⟩ := out_bind_ok (f := fun _ => Out.forEach f ys) h
    rcases List.mem_cons.1 hx with rfl | hx
    · exact h1
    · exact out_each_ok h2 x hx

theorem components_ok {rec : Addr → Out Unit} {h : St} {sh : Shape} {u : Unit} (hr : validateComponents rec h (some sh) = .ok u) {y : Addr} (hy : ShapeEdge h sh y) :
    rec y = .ok () := by
  cases hy with
  | items hi => simpa only [validateComponents, hi] using hr
  | property hp =>
    obtain ⟨_, h1, _⟩ := out_bind_ok hr
    exact out_each_ok h1 _ hp
  | pattern hp =>
    obtain ⟨_, _, h2⟩ := out_bind_ok hr
    exact out_each_ok h2 _ hp
  | member hm => exact out_each_ok hr _ hm

variable {H : HookFn} {E : Ext} {h : St} {ord : OMap Property → OMap Property}

theorem commons_seen : ∀ {n : Nat} {a : Addr}, validateCommonsH H E h ord n a = .ok () → ∀ {y}, WithComponents h a y → ∃ k, validateCommonsH H E h ord k y = .ok ()
  | 0, _, ha, _, _ => by cases ha
  | n + 1, a, ha, y, hy => by
    cases hy with
    | refl => exact ⟨_, ha⟩
    | step hx hy =>
      obtain ⟨b, hb, hx⟩ := hx
      unfold validateCommonsH at ha
      obtain ⟨_, _, ha⟩ := out_bind_ok ha
      simp only [hb] at ha
      obtain ⟨_, _, ha⟩ := out_bind_ok ha
      obtain ⟨_, _, ha⟩ := out_bind_ok ha
      obtain ⟨_, _, ha⟩ := out_bind_ok ha
      obtain ⟨_, _, ha⟩ := out_bind_ok ha
      obtain ⟨_, h1, h2⟩ := out_bind_ok ha
      rcases hx with ⟨s, hs, he⟩ | ⟨e, he, rfl⟩
      · rw [hs] at h1
        refine commons_seen (components_ok (rec := validateCommonsH H E h ord n) (u := ()) (h := h) (sh := s) ?_ he) hy
        unfold validateComponentsH at h1
        cases s with
        | object f =>
          obtain ⟨_, _, h1⟩ := out_bind_ok h1
          exact h1
        | _ => exact h1
      · exact commons_seen (out_each_ok h2 e he) hy

/-- What has been asked about a type. -/
theorem commons_asked {n : Nat} {a : Addr} (ha : validateCommonsH H E h ord n a = .ok ()) :
    H "RAML.validateShapeCommons" [.shape a] h = .ok () ∧ H "RAML.validateShapeFacets" [.shape a] h = .ok () ∧ H "RAML.validateExamples" [.shape a] h = .ok () ∧
    ∀ f, h.shapeAt a = some (.object f) → H "RAML.validateObjectShape" [.shape a] h = .ok () := by
  cases n with
  | zero => cases ha
  | succ n =>
    unfold validateCommonsH at ha
    obtain ⟨_, h1, ha⟩ := out_bind_ok ha
    cases hb : h.base a with
    | none => rw [hb] at ha; cases ha
    | some b =>
      simp only [hb] at ha
      obtain ⟨_, h2, ha⟩ := out_bind_ok ha
      obtain ⟨_, _, ha⟩ := out_bind_ok ha
      obtain ⟨_, h3, ha⟩ := out_bind_ok ha
      obtain ⟨_, _, ha⟩ := out_bind_ok ha
      obtain ⟨_, h4, _⟩ := out_bind_ok ha
      refine ⟨h1, h2, h3, fun f hf => ?_⟩
      have hs : b.shape = some (.object f) := by simpa [St.shapeAt, hb] using hf
      rw [hs] at h4
      obtain ⟨_, h4, _⟩ := out_bind_ok h4
      exact h4

theorem each_ok {σ α : Type} {f : α → M σ Unit} {S : σ} : ∀ {l : List α} {u : Unit} {T : σ}, (∀ x ∈ l, ∀ u T, f x S = (.ok u, T) → T = S) →
    M.tryEach f l S = (.ok u, T) → T = S ∧ ∀ x ∈ l, f x S = (.ok (), S)
  | [], _, _, _, h => by cases h; exact ⟨rfl, by simp⟩
  | x :: xs, _, T, hf, h => by
    obtain ⟨s1, h1, h2⟩ := Kin.tryEach_ok h
    obtain rfl := hf x (by simp) _ _ h1
    obtain ⟨h3, h4⟩ := each_ok (fun y hy => hf y (by simp [hy])) h2
    refine ⟨h3, fun y hy => ?_⟩
    rcases List.mem_cons.1 hy with rfl | hy
    · exact h1
    · exact h4 y hy

theorem both_ok {σ : Type} {m m' : M σ Unit} {S T : σ} {u : Unit} (hm : ∀ u T, m S = (.ok u, T) → T = S) (h : M.tryBoth m m' S = (.ok u, T)) :
    m S = (.ok (), S) ∧ m' S = (.ok (), T) := by
  obtain ⟨s1, h1, h2⟩ := Kin.tryEach_ok h
  obtain rfl := hm _ _ h1
  obtain ⟨s2, h3, h4⟩ := Kin.tryEach_ok h2
  cases h4
  exact ⟨h1, h3⟩

theorem runHooksV_ok {key : String} {args : List HookArg} {S T : VSt} {u : Unit} (h : runHooksV H key args S = (.ok u, T)) :
    H key (args ++ [.cache S.cache]) S.h = .ok () ∧ T = S := by
  unfold runHooksV at h
  cases hk : H key (args ++ [.cache S.cache]) S.h with
  | ok u => rw [hk] at h; cases h; exact ⟨rfl, rfl⟩
  | _ => rw [hk] at h; cases h

section
variable {n : Nat} {S T : VSt} {u : Unit}

theorem validateTypeH_ok {a : Addr} (hu : ∀ b, S.h.base a = some b → b.unwrapped = true) (h : validateTypeH H E ord n a S = (.ok u, T)) :
    T = S ∧ validateCommonsH H E S.h ord n a = .ok () := by
  unfold validateTypeH at h
  obtain ⟨x, s1, h1, h'⟩ := M.bind_ok.1 h
  replace h := h'
  clear h'
  unfold unwrapCopyH at h1
  obtain ⟨b, s2, h2, h1'⟩ := M.bind_ok.1 h1
  replace h1 := h1'
  clear h1'
  have : S.h.base a = some b ∧ s2 = S := by
    unfold onSt Heap.getBase at h2
    cases hb : S.h.base a with
    | none => simp [hb] at h2
    | some b' => simp [hb] at h2; exact ⟨by rw [h2.1], h2.2.symm⟩
  obtain ⟨hb, rfl⟩ := this
  rw [hu b hb] at h1
  cases h1
  obtain ⟨t, s3, h3, h'⟩ := M.bind_ok.1 h
  replace h := h'
  clear h'
  cases h3
  obtain ⟨_, s4, h4, h'⟩ := M.bind_ok.1 h
  replace h := h'
  clear h'
  unfold M.lift at h4 h
  simp only [Prod.mk.injEq] at h4 h
  exact ⟨h.2.symm.trans h4.2.symm, h.1⟩

theorem validateTypesH_ok {m : OMap Addr} (hu : ∀ e ∈ m, ∀ b, S.h.base e.2 = some b → b.unwrapped = true) (h : validateTypesH H E ord n m S = (.ok u, T)) :
    T = S ∧ H "RAML.validateTypes" [.types m, .cache S.cache] S.h = .ok () ∧ ∀ e ∈ m, validateCommonsH H E S.h ord n e.2 = .ok () := by
  unfold validateTypesH at h
  obtain ⟨_, s1, h1, h'⟩ := M.bind_ok.1 h
  replace h := h'
  clear h'
  obtain ⟨h1, rfl⟩ := runHooksV_ok h1
  obtain ⟨h2, h3⟩ := each_ok (fun e he u T h => (validateTypeH_ok (hu e he) h).1) h
  exact ⟨h2, h1, fun e he => (validateTypeH_ok (hu e he) (h3 e he)).2⟩

theorem validateFragmentH_ok {f : FragRef} (hf : ∃ k, (k, f) ∈ S.h.fragments) (hu : ∀ a b, DeclaredType S.h a → S.h.base a = some b → b.unwrapped = true)
    (h : validateFragmentH H E ord n f S = (.ok u, T)) :
    T = S ∧ match f with
      | .library i => ∀ l, S.h.libs[i]? = some l → ∀ e, e ∈ l.types ∨ e ∈ l.annotationTypes → validateCommonsH H E S.h ord n e.2 = .ok ()
      | .dataType i => ∀ d a, S.h.dts[i]? = some d → d.shape = some a → validateCommonsH H E S.h ord n a = .ok ()
      | .namedExample _ => True := by
  obtain ⟨k, hk⟩ := hf
  unfold validateFragmentH at h
  cases f with
  | library i =>
    simp only at h ⊢
    cases hl : S.h.libs[i]? with
    | none => rw [hl] at h; cases h
    | some l =>
      simp only [hl] at h
      unfold validateLibraryH at h
      obtain ⟨_, s1, h1, h'⟩ := M.bind_ok.1 h
      replace h := h'
      clear h'
      obtain ⟨-, rfl⟩ := runHooksV_ok h1
      have ha : ∀ e ∈ l.annotationTypes, ∀ b, s1.h.base e.2 = some b → b.unwrapped = true := fun e he b hb => hu _ _ (.annotationType hk hl he) hb
      have ht : ∀ e ∈ l.types, ∀ b, s1.h.base e.2 = some b → b.unwrapped = true := fun e he b hb => hu _ _ (.type hk hl he) hb
      obtain ⟨h2, h3⟩ := both_ok (fun u T h => (validateTypesH_ok ha h).1) h
      refine ⟨(validateTypesH_ok ht h3).1, fun l' hl' e he => ?_⟩
      cases hl'
      rcases he with he | he
      · exact (validateTypesH_ok ht h3).2.2 e he
      · exact (validateTypesH_ok ha h2).2.2 e he
  | dataType i =>
    simp only at h ⊢
    obtain ⟨_, s1, h1, h'⟩ := M.bind_ok.1 h
    replace h := h'
    clear h'
    obtain ⟨-, rfl⟩ := runHooksV_ok h1
    cases hd : s1.h.dts[i]? with
    | none => simp [hd] at h
    | some d =>
      cases hs : d.shape with
      | none => simp [hd, hs] at h
      | some a =>
        simp only [hd, hs, Option.bind_some] at h
        obtain ⟨h2, h3⟩ := validateTypeH_ok (fun b hb => hu _ _ (.dataType hk hd hs) hb) h
        exact ⟨h2, fun d' a' e1 e2 => by cases e1; rw [hs] at e2; cases e2; exact h3⟩
  | namedExample i => cases h; exact ⟨rfl, trivial⟩

end

theorem validateShapesH_ok {frags : List FragRef} (hf : frags.Perm (h.fragments.map (·.2))) (hu : ∀ a b, DeclaredType h a → h.base a = some b → b.unwrapped = true) {n : Nat} {u : Unit} {t : St}
    (hv : validateShapesH H E ord frags n h = (.ok u, t)) {a : Addr} (ha : DeclaredType h a) : validateCommonsH H E h ord n a = .ok () := by
  unfold validateShapesH at hv
  obtain ⟨_, s1, h1, hv'⟩ := M.bind_ok.1 hv
  replace hv := hv'
  clear hv'
  have hs : s1 = h := by unfold runHooks at h1; simp only [Prod.mk.injEq] at h1; exact h1.2.symm
  subst hs
  have hin : ∀ f ∈ frags, ∃ k, (k, f) ∈ s1.fragments := fun f hfr => by
    obtain ⟨e, he, rfl⟩ := List.mem_map.1 (hf.mem_iff.1 hfr)
    exact ⟨e.1, he⟩
  simp only at hv
  cases hm : M.tryBoth (validateFragmentsH H E ord n frags) (validateDomainExtensionsH H E n) (⟨s1, []⟩ : VSt) with
  | mk o T =>
    rw [hm] at hv
    simp only [Prod.mk.injEq] at hv
    obtain ⟨rfl, -⟩ := hv
    have key : ∀ u T, validateFragmentsH H E ord n frags (⟨s1, []⟩ : VSt) = (.ok u, T) → T = ⟨s1, []⟩ ∧ ∀ f ∈ frags, validateFragmentH H E ord n f ⟨s1, []⟩ = (.ok (), ⟨s1, []⟩) := by
      intro u T h
      unfold validateFragmentsH at h
      obtain ⟨_, s2, h2, h'⟩ := M.bind_ok.1 h
      replace h := h'
      clear h'
      obtain ⟨-, rfl⟩ := runHooksV_ok h2
      exact each_ok (fun f hfr u T h => (validateFragmentH_ok (hin f hfr) hu h).1) h
    have h2 := key _ _ (both_ok (fun u T h => (key u T h).1) hm).1
    have h3 : ∀ {k f}, (k, f) ∈ s1.fragments → f ∈ frags := fun {k f} hk => hf.mem_iff.2 (List.mem_map.2 ⟨_, hk, rfl⟩)
    cases ha with
    | type hk hl he => exact (validateFragmentH_ok ⟨_, hk⟩ hu (h2.2 _ (h3 hk))).2 _ hl _ (.inl he)
    | annotationType hk hl he => exact (validateFragmentH_ok ⟨_, hk⟩ hu (h2.2 _ (h3 hk))).2 _ hl _ (.inr he)
    | dataType hk hd hs => exact (validateFragmentH_ok ⟨_, hk⟩ hu (h2.2 _ (h3 hk))).2 _ _ hd hs

end GoRaml.Hooked

namespace GoRaml.Hooked

open GoRaml GoRaml.Spec

/-! ## Parsing -/

/-- The function never succeeds. -/
def Fails {σ α : Type} (m : M σ α) : Prop := ∀ s a t, m s ≠ (.ok a, t)

theorem Fails.bind {σ α β : Type} {m : M σ α} (h : Fails m) (f : α → M σ β) : Fails (M.bind m f) := fun s b t hb => by
  obtain ⟨a, s1, h1, _⟩ := M.bind_ok.1 hb
  exact h s a s1 h1

theorem Fails.after {σ α β : Type} {f : α → M σ β} (h : ∀ a, Fails (f a)) (m : M σ α) : Fails (M.bind m f) := fun s b t hb => by
  obtain ⟨a, s1, _, h1⟩ := M.bind_ok.1 hb
  exact h a s1 b t h1

theorem vetoed_fails {H : HookFn} {key : String} {args : List HookArg} (h : Vetoes H key args) : Fails (runHooks H key args) := fun s a t ht => by
  obtain ⟨e, he⟩ := h s
  simp [runHooks, he] at ht

theorem makeShape_fails {H : HookFn} {v : YNode} (h : Vetoes H "before:RAML.makeNewShapeYAML" [.node v]) (E : Env) (name loc : String) : ∀ n, Fails ((callsH H E n).makeShape v name loc)
  | 0 => fun s a t ht => by cases ht
  | _ + 1 => (vetoed_fails h).bind _

theorem typeEntries_fails {c : Calls} {v : YNode} (hc : ∀ name loc, Fails (c.makeShape v name loc)) (put : String → String → Addr → M St Unit) (loc : String) :
    ∀ (l : List YNode) (m : OMap Addr), (∃ k, (k, v) ∈ entriesOf l) → Fails (typeEntries c put loc l m)
  | [], _, ⟨_, h⟩ => by cases h
  | [_], _, ⟨_, h⟩ => by cases h
  | x :: y :: rest, m, ⟨k, h⟩ => by
    simp only [entriesOf, List.mem_cons, Prod.mk.injEq] at h
    unfold typeEntries
    rcases h with ⟨-, rfl⟩ | h
    · exact (hc _ _).bind _
    · exact Fails.after (fun _ => Fails.after (fun _ => typeEntries_fails hc put loc rest _ ⟨k, h⟩) _) _

theorem sectionOf_fails {α : Type} {v : YNode} {old : α} {read : List YNode → M St α} (hn : v.tag ≠ "!!null") (h : Fails (read v.content)) : Fails (sectionOf v old read) := by
  unfold sectionOf
  rw [if_neg hn]
  split
  · exact fun s a t ht => by cases ht
  · exact h

theorem libraryEntries_fails {E : Env} {c : Calls} {v sec : YNode} {k : String} (hc : ∀ name loc, Fails (c.makeShape v name loc)) (hn : sec.tag ≠ "!!null") (hk : k = "types" ∨ k = "annotationTypes")
    (hv : ∃ name, (name, v) ∈ entriesOf sec.content) : ∀ (l : List YNode) (li : Lib), (k, sec) ∈ entriesOf l → Fails (libraryEntries E c l li)
  | [], _, h => by cases h
  | [_], _, h => by cases h
  | x :: y :: rest, li, h => by
    simp only [entriesOf, List.mem_cons, Prod.mk.injEq] at h
    unfold libraryEntries
    rcases h with ⟨hx, rfl⟩ | h
    · refine Fails.bind ?_ _
      unfold libraryEntry
      rcases hk with rfl | rfl
      · rw [if_neg (by rw [← hx]; decide), if_pos hx.symm]
        exact (sectionOf_fails hn (typeEntries_fails hc _ _ _ _ hv)).bind _
      · rw [if_neg (by rw [← hx]; decide), if_neg (by rw [← hx]; decide), if_pos hx.symm]
        exact (sectionOf_fails hn (typeEntries_fails hc _ _ _ _ hv)).bind _
    · exact Fails.after (fun _ => libraryEntries_fails hc hn hk hv rest _ h) _

theorem decodeLibrary_fails {E : Env} {c : Calls} {text path : String} {d v sec : YNode} {k : String} (hd : E.yamlParse text = some d)
    (hc : ∀ name loc, Fails (c.makeShape v name loc)) (hn : sec.tag ≠ "!!null") (hk : k = "types" ∨ k = "annotationTypes")
    (hv : ∃ name, (name, v) ∈ entriesOf sec.content) (hs : (k, sec) ∈ entriesOf (docRoot d).content) : Fails (decodeLibrary E c text path) := by
  refine Fails.bind ?_ _
  unfold decodeFragment
  rw [hd]
  simp only
  split
  · exact fun s a t ht => by cases ht
  · split
    · exact fun s a t ht => by cases ht
    · exact libraryEntries_fails hc hn hk hv _ _ hs

theorem parseFromPathH_vetoed {H : HookFn} {E : Env} {path : String} {d v sec : YNode} {k : String} (hd : Document E path d)
    (h : Vetoes H "before:RAML.makeNewShapeYAML" [.node v]) (hn : sec.tag ≠ "!!null") (hk : k = "types" ∨ k = "annotationTypes")
    (hv : ∃ name, (name, v) ∈ entriesOf sec.content) (hs : (k, sec) ∈ entriesOf (docRoot d).content) (n m i : Nat) (s t : St) :
    parseFromPathH H E n m path s ≠ (.ok (.library i), t) := by
  intro hp
  obtain ⟨text, h1, h2⟩ := hd
  unfold parseFromPathH at hp
  rw [h1] at hp
  simp only at hp
  obtain ⟨f, s1, h3, hp'⟩ := M.bind_ok.1 hp
  obtain ⟨_, s2, _, h4⟩ := M.bind_ok.1 hp'
  obtain ⟨_, s3, _, h5⟩ := M.bind_ok.1 h4
  cases h5
  obtain ⟨head, s4, _, h6⟩ := M.bind_ok.1 h3
  obtain ⟨kind, s5, _, h7⟩ := M.bind_ok.1 h6
  cases kind with
  | library =>
    obtain ⟨_, _, h8, _⟩ := M.bind_ok.1 h7
    exact decodeLibrary_fails h2 (fun name loc => makeShape_fails h E name loc n) hn hk hv hs _ _ _ h8
  | dataType => obtain ⟨_, _, _, h8⟩ := M.bind_ok.1 h7; cases h8
  | namedExample => obtain ⟨_, _, _, h8⟩ := M.bind_ok.1 h7; cases h8

/-! ## Unwrapping -/

theorem unwrapH_fails {H : HookFn} {a : Addr} (h : Vetoes H "RAML.UnwrapShape" [.shape a]) : ∀ n, Fails (unwrapH H n a)
  | 0 => fun s x t ht => by cases ht
  | _ + 1 => (vetoed_fails h).bind _

theorem markH_fails {H : HookFn} {a : Addr} (h : Vetoes H "RAML.FindAndMarkRecursion" [.shape a]) : ∀ n, Fails (markH H n a)
  | 0 => fun s x t ht => by cases ht
  | _ + 1 => (vetoed_fails h).bind _

end GoRaml.Hooked
