import Verif.Model.ValidateAll
import Verif.Spec.ValidateAll
import Verif.Props.Commons
import Verif.Lemmas.Clone

/-!
# Property C44: the verdict of `ValidateShapes` covers the whole model
-/

namespace GoRaml

open Spec

/-- The state is left as it is, and the verdict is `P`. -/
def Steady (m : Nat → M VSt Unit) (s : VSt) (P : Prop) : Prop :=
  Settles (fun k => (m k s).1) P ∧ ∀ k, (m k s).2 = s

theorem Steady.congr {m : Nat → M VSt Unit} {s : VSt} {P Q : Prop} (h : Steady m s P) (hpq : P ↔ Q) : Steady m s Q :=
  ⟨h.1.congr hpq, h.2⟩

theorem tryEach_cons_run {σ α : Type} {f : α → M σ Unit} {x : α} {xs : List α} {s : σ} (hx : (f x s).2 = s)
    (hxs : (M.tryEach f xs s).2 = s) :
    (M.tryEach f (x :: xs) s).2 = s ∧
    (∀ P Q, Decides (f x s).1 P → Decides (M.tryEach f xs s).1 Q → Decides (M.tryEach f (x :: xs) s).1 (P ∧ Q)) := by
  cases h1 : f x s with
  | mk o1 s1 =>
    cases h2 : M.tryEach f xs s with
    | mk o2 s2 =>
      rw [h1] at hx; rw [h2] at hxs
      simp only at hx hxs
      subst hx; subst hxs
      have key : M.tryEach f (x :: xs) s2 = (match o1, o2 with
          | .ok _, .ok _ => (.ok (), s2)
          | .ok _, .err e => (.err e, s2)
          | .ok _, .panic e => (.panic e, s2)
          | .ok _, .diverge => (.diverge, s2)
          | .err e, .ok _ => (.err e, s2)
          | .err e, .err _ => (.err e, s2)
          | .err _, .panic e => (.panic e, s2)
          | .err _, .diverge => (.diverge, s2)
          | .panic e, _ => (.panic e, s2)
          | .diverge, _ => (.diverge, s2)) := by
        cases o1 <;> cases o2 <;> simp [M.tryEach, M.bind, M.attempt, h1, h2, M.ret, M.err]
      rw [key]
      constructor
      · cases o1 <;> cases o2 <;> rfl
      · rintro P Q (⟨h3, hp⟩ | ⟨⟨m, h3⟩, hp⟩) (⟨h4, hq⟩ | ⟨⟨m', h4⟩, hq⟩) <;> subst h3 <;> subst h4
        · exact Or.inl ⟨rfl, hp, hq⟩
        · exact Or.inr ⟨⟨_, rfl⟩, fun h => hq h.2⟩
        · exact Or.inr ⟨⟨_, rfl⟩, fun h => hp h.1⟩
        · exact Or.inr ⟨⟨_, rfl⟩, fun h => hp h.1⟩

theorem tryEach_steady {α : Type} {f : Nat → α → M VSt Unit} {s : VSt} {P : α → Prop} {l : List α}
    (h : ∀ x ∈ l, Steady (fun k => f k x) s (P x)) : Steady (fun k => M.tryEach (f k) l) s (∀ x ∈ l, P x) := by
  induction l with
  | nil => exact ⟨Settles.ok.congr (by simp), fun _ => rfl⟩
  | cons x xs ih =>
    obtain ⟨⟨n1, h1⟩, e1⟩ := h x (by simp)
    obtain ⟨⟨n2, h2⟩, e2⟩ := ih fun y hy => h y (by simp [hy])
    refine ⟨⟨max n1 n2, fun k hk => ?_⟩, fun k => (tryEach_cons_run (e1 k) (e2 k)).1⟩
    refine ((tryEach_cons_run (e1 k) (e2 k)).2 _ _ (h1 k (by omega)) (h2 k (by omega))).congr ?_
    simp

theorem tryBoth_steady {m m' : Nat → M VSt Unit} {s : VSt} {P Q : Prop} (h : Steady m s P) (h' : Steady m' s Q) :
    Steady (fun k => M.tryBoth (m k) (m' k)) s (P ∧ Q) := by
  obtain ⟨⟨n1, h1⟩, e1⟩ := h
  obtain ⟨⟨n2, h2⟩, e2⟩ := h'
  have hlast : ∀ k, (M.tryEach id [m' k] s).2 = s ∧ (∀ Q, Decides (m' k s).1 Q → Decides (M.tryEach id [m' k] s).1 Q) := by
    intro k
    have := tryEach_cons_run (f := id) (x := m' k) (xs := []) (s := s) (e2 k) rfl
    refine ⟨this.1, fun Q hQ => ?_⟩
    exact (this.2 Q True hQ (Or.inl ⟨rfl, trivial⟩)).congr (by simp)
  refine ⟨⟨max n1 n2, fun k hk => ?_⟩, fun k => (tryEach_cons_run (f := id) (e1 k) (hlast k).1).1⟩
  exact (tryEach_cons_run (f := id) (e1 k) (hlast k).1).2 _ _ (h1 k (by omega)) ((hlast k).2 _ (h2 k (by omega)))

theorem unwrapCopy_unwrapped {n : Nat} {a : Addr} {s : VSt} {b : Base} (hb : s.h.base a = some b) (hu : b.unwrapped = true) :
    unwrapCopy n a s = (.ok a, s) := by
  simp [unwrapCopy, M.bind, onSt, Heap.getBase, hb, hu, M.ret]

theorem validateType_steady (E : Ext) {s : VSt} (hp : Props.Prepared s.h) (hd : RuntimeDiscriminators s.h)
    {ord : OMap Property → OMap Property} (ho : ∀ l, (ord l).Perm l) {a : Addr} {b : Base} (hb : s.h.base a = some b)
    (hu : b.unwrapped = true) (hn : NoInfiniteComponents s.h a) :
    Steady (fun k => validateType E ord k a) s (TypeOK E s.h a) := by
  have ha : a < s.h.bases.length := lt_of_get hb
  have hn' : NoInfinitePath s.h a := by
    intro f hf
    obtain ⟨n, hn⟩ := hn f hf
    refine ⟨n, fun hr => hn ?_⟩
    obtain ⟨sh, h1, h2⟩ := hr
    obtain ⟨b, hb1, hb2⟩ : ∃ b, s.h.base (f n) = some b ∧ b.shape = some sh := by
      simpa [St.shapeAt, Option.bind_eq_some_iff] using h1
    exact ⟨b, hb1, Or.inl ⟨sh, hb2, h2⟩⟩
  have hrun : ∀ k, validateType E ord k a s =
      ((check E s.h k a).bind fun _ => validateCommons E s.h ord k a, s) := by
    intro k
    simp only [validateType, M.bind, unwrapCopy_unwrapped hb hu, M.get, M.lift]
    cases check E s.h k a <;> rfl
  refine ⟨?_, fun k => by show (validateType E ord k a s).2 = s; rw [hrun k]⟩
  have he : (fun k => (validateType E ord k a s).1) =
      fun k => (check E s.h k a).bind fun _ => validateCommons E s.h ord k a := by funext k; rw [hrun k]
  rw [he]
  have hc : Settles (fun k => check E s.h k a) (Consistent E s.h a) := check_decides E hp.closed hn' hd ha
  exact Settles.bind hc fun _ =>
    commons_settle E hp.closed hp.guarded hp.facets hp.rooted hp.values ho (acc_of_noInfiniteComponents hn) ha

namespace Props

/-- C44: on an unwrapped model, in whatever order fragments and facet declarations are visited, `ValidateShapes` returns, does not
panic, changes nothing, and reports no error exactly when the model is valid. -/
theorem c44_unwrapped_model (E : Ext) {h : St} (hp : Prepared h) (hd : RuntimeDiscriminators h) (hl : Loaded h) (hu : AllUnwrapped h)
    (hv : ∀ d ∈ h.domainExts, GoValue d.value) (hn : ∀ a, DeclaredType h a → NoInfiniteComponents h a)
    {ord : OMap Property → OMap Property} (ho : ∀ l, (ord l).Perm l) {frags : List FragRef}
    (hf : frags.Perm (h.fragments.map (·.2))) :
    Settled (fun k => (validateShapes E ord frags k h).1) (ModelOK E h) ∧ ∀ k, (validateShapes E ord frags k h).2 = h := by
  let s : VSt := ⟨h, []⟩
  have base : ∀ a, a < h.bases.length → ∃ b, h.base a = some b := fun a ha => ⟨h.bases[a], by simp [St.base, ha]⟩
  have hty : ∀ a, DeclaredType h a → Steady (fun k => validateType E ord k a) s (TypeOK E h a) := by
    intro a ha
    obtain ⟨b, hb⟩ := base a (hl.declared a ha)
    exact validateType_steady E (s := s) hp hd ho hb (hu.1 a b ha hb) (hn a ha)
  have hfr : ∀ f ∈ frags, Steady (fun k => validateFragment E ord k f) s
      (match f with
        | .library i => ∀ l, h.libs[i]? = some l → (∀ e ∈ l.annotationTypes, TypeOK E h e.2) ∧ ∀ e ∈ l.types, TypeOK E h e.2
        | .dataType i => ∀ d a, h.dts[i]? = some d → d.shape = some a → TypeOK E h a
        | .namedExample _ => True) := by
    intro f hfm
    obtain ⟨e, he, rfl⟩ := List.mem_map.1 (hf.mem_iff.1 hfm)
    obtain ⟨k, f⟩ := e
    cases f with
    | library i =>
      obtain ⟨l, hl'⟩ := hl.libs k i he
      have h1 : Steady (fun k => validateTypes E ord k l.annotationTypes) s (∀ e ∈ l.annotationTypes, TypeOK E h e.2) :=
        tryEach_steady (f := fun k (ka : String × Addr) => validateType E ord k ka.2) (P := fun e => TypeOK E h e.2)
          fun e hem => hty e.2 (.annotationType he hl' hem)
      have h2 : Steady (fun k => validateTypes E ord k l.types) s (∀ e ∈ l.types, TypeOK E h e.2) :=
        tryEach_steady (f := fun k (ka : String × Addr) => validateType E ord k ka.2) (P := fun e => TypeOK E h e.2)
          fun e hem => hty e.2 (.type he hl' hem)
      have hrun : ∀ k, validateFragment E ord k (.library i) s = validateLibrary E ord k l s := by
        intro k; simp only [validateFragment, s, hl']
      have h3 := tryBoth_steady h1 h2
      refine ⟨?_, fun k => ?_⟩
      · have he' : (fun k => (validateFragment E ord k (.library i) s).1) = fun k => (validateLibrary E ord k l s).1 := by
          funext k; rw [hrun k]
        show Settles (fun k => (validateFragment E ord k (.library i) s).1) _
        rw [he']
        refine h3.1.congr ⟨fun h4 l' h5 => ?_, fun h4 => h4 l hl'⟩
        rw [hl'] at h5; cases h5; exact h4
      · show (validateFragment E ord k (.library i) s).2 = s
        rw [hrun k]; exact h3.2 k
    | dataType i =>
      obtain ⟨d, a, hd', ha⟩ := hl.dts k i he
      have h1 := hty a (.dataType he hd' ha)
      have hrun : ∀ k, validateFragment E ord k (.dataType i) s = validateType E ord k a s := by
        intro k; simp only [validateFragment, s, hd', Option.bind_some, ha]
      refine ⟨?_, fun k => ?_⟩
      · have he' : (fun k => (validateFragment E ord k (.dataType i) s).1) = fun k => (validateType E ord k a s).1 := by
          funext k; rw [hrun k]
        show Settles (fun k => (validateFragment E ord k (.dataType i) s).1) _
        rw [he']
        refine h1.1.congr ⟨fun h4 d' a' h5 h6 => ?_, fun h4 => h4 d a hd' ha⟩
        rw [hd'] at h5; cases h5; rw [ha] at h6; cases h6; exact h4
      · show (validateFragment E ord k (.dataType i) s).2 = s
        rw [hrun k]; exact h1.2 k
    | namedExample i => exact ⟨Settles.ok, fun _ => rfl⟩
  have hex : ∀ d ∈ h.domainExts, Steady (fun k => validateDomainExtension E k d) s (∀ a, d.definedBy = some a → Valid E h a d.value) := by
    intro d hdm
    obtain ⟨a, ha, hlt⟩ := hl.defined d hdm
    obtain ⟨b, hb⟩ := base a hlt
    have hrun : ∀ k, validateDomainExtension E k d s = (validate E h k a d.value, s) := by
      intro k
      simp only [validateDomainExtension, s, ha, Option.bind_some, hb, hu.2 d hdm a b ha hb, if_true]
    refine ⟨?_, fun k => by show (validateDomainExtension E k d s).2 = s; rw [hrun k]⟩
    have he' : (fun k => (validateDomainExtension E k d s).1) = fun k => validate E h k a d.value := by funext k; rw [hrun k]
    show Settles (fun k => (validateDomainExtension E k d s).1) _
    rw [he']
    refine (validate_settles E hp.closed hp.guarded hlt (hv d hdm)).congr ?_
    constructor
    · intro h1 a' ha'; rw [ha] at ha'; cases ha'; exact h1
    · intro h1; exact h1 a ha
  have hall := tryBoth_steady (tryEach_steady hfr) (m' := fun k => validateDomainExtensions E k)
    (tryEach_steady (f := fun k d => validateDomainExtension E k d) hex)
  refine ⟨settled_of (hall.1.congr ?_), fun k => congrArg VSt.h (hall.2 k)⟩
  refine and_congr ?_ Iff.rfl
  constructor
  · intro h1 a ha
    cases ha with
    | type hk hli hem =>
      exact ((h1 _ (hf.mem_iff.2 (List.mem_map.2 ⟨_, hk, rfl⟩))) _ hli).2 _ hem
    | annotationType hk hli hem =>
      exact ((h1 _ (hf.mem_iff.2 (List.mem_map.2 ⟨_, hk, rfl⟩))) _ hli).1 _ hem
    | dataType hk hdi hsh =>
      exact (h1 _ (hf.mem_iff.2 (List.mem_map.2 ⟨_, hk, rfl⟩))) _ _ hdi hsh
  · intro h1 f hfm
    obtain ⟨e, he, rfl⟩ := List.mem_map.1 (hf.mem_iff.1 hfm)
    obtain ⟨k, f⟩ := e
    cases f with
    | library i => exact fun l hl' => ⟨fun e hem => h1 _ (.annotationType he hl' hem), fun e hem => h1 _ (.type he hl' hem)⟩
    | dataType i => exact fun d a hd' ha => h1 _ (.dataType he hd' ha)
    | namedExample i => trivial

/-- The hypotheses of C44 are met by a library with four types, an annotation type and an annotation; it is valid, and a wrong annotation
or a wrong facet is found. -/
example : Prepared exCommons ∧ RuntimeDiscriminators exCommons ∧ Loaded exCommons ∧ AllUnwrapped exCommons ∧
    (∀ d ∈ exCommons.domainExts, GoValue d.value) ∧ (∀ a, DeclaredType exCommons a → NoInfiniteComponents exCommons a) ∧
    (validateShapes exE id [.library 0] 6 exCommons).1 = .ok () ∧
    (validateShapes exE id [.library 0] 6 { exCommons with domainExts := [{ name := "limit", value := .int 0, definedBy := some 3 }] }).1 =
      .err "value must be greater than" ∧
    (validateShapes exE id [.library 0] 6 { exCommons with fmaps := [[("max", .int 7), ("note", .str "n")], []] }).1 =
      .err "required custom facet is missing" := by
  have hdt : ∀ a, DeclaredType exCommons a → a < exCommons.bases.length := by
    intro a ha
    cases ha with
    | type hk hl he =>
      simp [exCommons] at hk; obtain ⟨_, rfl⟩ := hk
      simp [exCommons] at hl; subst hl
      simp at he
      rcases he with rfl | rfl | rfl | rfl <;> decide
    | annotationType hk hl he =>
      simp [exCommons] at hk; obtain ⟨_, rfl⟩ := hk
      simp [exCommons] at hl; subst hl
      simp at he
      subst he; decide
    | dataType hk hd hs => simp [exCommons] at hk
  have hun : ∀ a b, exCommons.base a = some b → b.unwrapped = true := by
    intro a b h
    rcases exCommons_cases h with rfl | rfl | rfl | rfl | rfl | rfl <;> cases h <;> rfl
  refine ⟨exCommons_prepared, ?_, ⟨?_, ?_, hdt, ?_⟩, ⟨fun a b _ h => hun a b h, fun d _ a b _ h => hun a b h⟩, ?_,
    fun a _ => exCommons_finite a, by decide +kernel, by decide +kernel, by decide +kernel⟩
  · intro a f hs
    obtain ⟨b, hb1, hb2⟩ : ∃ b, exCommons.base a = some b ∧ b.shape = some (.object f) := by
      simpa [St.shapeAt, Option.bind_eq_some_iff] using hs
    rcases exCommons_cases hb1 with rfl | rfl | rfl | rfl | rfl | rfl <;> cases hb1 <;> cases hb2
    exact .nil
  · intro k i hk
    simp [exCommons] at hk; obtain ⟨_, rfl⟩ := hk
    exact ⟨_, rfl⟩
  · intro k i hk
    simp [exCommons] at hk
  · intro d hd
    simp [exCommons] at hd; subst hd
    exact ⟨3, rfl, by decide⟩
  · intro d hd
    simp [exCommons] at hd; subst hd
    exact .int _ (by norm_num) (by norm_num)

end Props

end GoRaml
