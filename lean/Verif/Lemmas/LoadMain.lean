import Verif.Lemmas.LoadFrag
import Verif.Model.Parse
import Mathlib.Order.WellFounded
import Mathlib.Data.Fintype.Order

/-!
# Loading: all calls keep the invariant, and calls end
-/

namespace GoRaml.Load

open GoRaml GoRaml.Spec

/-- What can be reached from the files that `p` includes. -/
def Behind (E : Env) (p q : String) : Prop := ∃ r, Includes E p r ∧ LeadsTo E r q

theorem behind_leadsTo {E : Env} {p q : String} (h : Behind E p q) : LeadsTo E p q := by
  obtain ⟨r, h1, h2⟩ := h
  exact Relation.ReflTransGen.head (.inl h1) h2

theorem within_trans {t u v : YNode} (h : Within t u) (k : Within u v) : Within t v := by
  induction k with
  | refl => exact h
  | step hu _ ih => exact .step hu ih

theorem within_root (d : YNode) : Within (docRoot d) d := by
  unfold docRoot
  split
  · rename_i n l; exact .step (List.mem_cons_self ..) (.refl n)
  · exact .refl _

theorem within_content {t u d : YNode} (h : Within t u) (hu : u ∈ (docRoot d).content) : Within t d :=
  within_trans (.step hu h) (within_root d)

theorem within_mk {t : YNode} {fs : List YNode} (h : Within t (.mk .mapping "" "" fs)) (ht : t.tag = "!include") : ∃ u ∈ fs, Within t u := by
  cases h with
  | refl => exact absurd ht (by simp [YNode.tag])
  | step hu hw => exact ⟨_, hu, hw⟩

theorem not_within_json {t : YNode} {text : String} (h : Within t (.mk .mapping "" "" [YNode.str "type", YNode.str text])) (ht : t.tag = "!include") : False := by
  obtain ⟨u, hu, hw⟩ := within_mk h ht
  simp only [List.mem_cons, List.not_mem_nil, or_false] at hu
  rcases hu with rfl | rfl <;> cases hw with
  | refl => exact absurd ht (by simp [YNode.str, YNode.tag])
  | step h _ => cases h

/-- Registering a new library or data type keeps the further invariant. -/
structure Regs (E : Env) (K : Ctl) : Prop where
  lib : ∀ path s s1 l, getFragment s path = none → K.X s1 → G False (only (Behind E path)) s s1 → l.location = path → K.X (regLib s1 path l)
  dt : ∀ path s s1 l, getFragment s path = none → K.X s1 → G False (only (Behind E path)) s s1 → l.location = path → K.X (regDT s1 path l)

/-- The files that a node in `loc` includes lead to `T` only. -/
def IncludesInto (E : Env) (T : String → Prop) (loc : String) (v : YNode) : Prop :=
  ∀ t q, Within t v → t.tag = "!include" → LeadsTo E (E.joinDir loc t.value) q → T q

/-- The contracts of the three functions. -/
structure Specs (E : Env) (K : Ctl) (c : Calls) : Prop where
  shape : ∀ T loc v, IncludesInto E T loc v → ShapeSpec E K T c v loc
  type : ∀ T p, (∀ q, LeadsTo E p q → T q) → TypeSpec E K T c p
  lib : ∀ T p, (∀ q, LeadsTo E p q → T q) → LibSpec E K T c p

theorem Specs.inc {E : Env} {K : Ctl} {c : Calls} (h : Specs E K c) {T : String → Prop} {loc : String} {v t : YNode} (hv : IncludesInto E T loc v) (ht : Within t v) :
    IncSpec E K T c loc t := fun htag =>
  ⟨h.type T _ fun q hq => hv t q ht htag hq, hv t _ ht htag Relation.ReflTransGen.refl⟩

theorem Specs.sub {E : Env} {K : Ctl} {c : Calls} (h : Specs E K c) {T : String → Prop} {loc : String} {v : YNode} (hv : IncludesInto E T loc v) : Sub E K T c loc v :=
  fun _ ht => ⟨h.shape T loc _ fun t q ht' htag hq => hv t q (within_trans ht' ht) htag hq, h.inc hv ht⟩

theorem includesInto_behind {E : Env} {p : String} {d u : YNode} (hd : Document E p d) (hu : u ∈ (docRoot d).content) : IncludesInto E (Behind E p) p u :=
  fun t _ ht htag hq => ⟨_, ⟨d, t, hd, within_content ht hu, htag, rfl⟩, hq⟩

theorem includesInto_fields {E : Env} {p : String} {d : YNode} (hd : Document E p d) {fs : List YNode} (hfs : ∀ u ∈ fs, u ∈ (docRoot d).content) :
    IncludesInto E (Behind E p) p (.mk .mapping "" "" fs) := fun t q ht htag hq => by
  obtain ⟨u, hu, hw⟩ := within_mk ht htag
  exact includesInto_behind hd (hfs u hu) t q hw htag hq

section
variable {E : Env} {K : Ctl} {c : Calls}

theorem decodeLibrary_spec (h : Specs E K c) (hR : Regs E K) {T : String → Prop} {text path : String} {P : Perm} {s : St} (hT : ∀ q, LeadsTo E path q → T q)
    (hfile : E.file path = some text) (hg : getFragment s path = none) (hw : W E P s) (hx : K.X s) :
    Run E K False P (only T) (decodeLibrary E c text path) s (fun i s' => ∃ l, s'.libs[i]? = some l ∧ l.location = path ∧ ∃ f, getFragment s' path = some f) :=
  decodeLibrary_run (K' := K) (T' := Behind E path) (hT _ .refl) (fun _ hq => hT _ (behind_leadsTo hq)) (fun _ h => h) id
    (fun d hd _ hu => h.sub (includesInto_behind ⟨text, hfile, hd⟩ hu))
    (fun d v hd hv => h.lib T _ fun _ hq => hT _ (Relation.ReflTransGen.head (.inr ⟨d, v, ⟨text, hfile, hd⟩, hv, rfl⟩) hq))
    (fun s1 l hx1 g hl => hR.lib path s s1 l hg hx1 g hl) hw hx

theorem decodeDataType_spec (h : Specs E K c) (hR : Regs E K) {T : String → Prop} {text path : String} {P : Perm} {s : St} (hT : ∀ q, LeadsTo E path q → T q)
    (hfile : E.file path = some text) (hg : getFragment s path = none) (hw : W E P s) (hx : K.X s) :
    Run E K False P (only T) (decodeDataType E c text path) s (fun i s' => ∃ l, s'.dts[i]? = some l ∧ l.location = path ∧ ∃ f, getFragment s' path = some f) :=
  decodeDataType_run (K' := K) (T' := Behind E path) (hT _ .refl) (fun _ hq => hT _ (behind_leadsTo hq)) (fun _ h => h) id
    (fun _ => h.shape _ _ _ fun _ _ ht htag _ => (not_within_json ht htag).elim)
    (fun d hd _ fs hfs => h.shape _ _ _ (includesInto_fields ⟨text, hfile, hd⟩ hfs))
    (fun d v hd _ hv => h.lib T _ fun _ hq => hT _ (Relation.ReflTransGen.head (.inr ⟨d, v, ⟨text, hfile, hd⟩, hv, rfl⟩) hq))
    (fun s1 l hx1 g hl => hR.dt path s s1 l hg hx1 g hl) hw hx

/-- All three functions keep the invariant, whatever the bound on nested calls. -/
theorem specs (hdiv : K.div) (hR : Regs E K) : ∀ n, Specs E K (calls E n)
  | 0 =>
    { shape := fun _ _ _ _ _ _ _ _ _ => hdiv
      type := fun _ _ _ _ _ _ _ => hdiv
      lib := fun _ _ _ _ _ _ _ => hdiv }
  | n + 1 => by
    have ih := specs hdiv hR n
    exact
      { shape := fun T loc v hv P s name hw hx =>
          makeNewShapeYAML_run ⟨fun u hu => ih.sub fun t q ht => hv t q (.step hu ht), ih.inc hv (.refl v)⟩ hw hx
        type := fun T p hT P s hw hx =>
          parseDataType_run (K' := K) (T' := Behind E p) (hT _ .refl) (fun _ hq => hT _ (behind_leadsTo hq)) (fun _ h => h) id
            (fun _ _ _ => ih.shape _ _ _ fun _ _ ht htag _ => (not_within_json ht htag).elim)
            (fun text d hf hd _ fs hfs => ih.shape _ _ _ (includesInto_fields ⟨text, hf, hd⟩ hfs))
            (fun text d v hf hd _ hv => ih.lib T _ fun _ hq => hT _ (Relation.ReflTransGen.head (.inr ⟨d, v, ⟨text, hf, hd⟩, hv, rfl⟩) hq))
            (fun s1 l _ hg hx1 g hl => hR.dt p s s1 l hg hx1 g hl) hw hx
        lib := fun T p hT P s hw hx =>
          parseLibrary_run (K' := K) (T' := Behind E p) (hT _ .refl) (fun _ hq => hT _ (behind_leadsTo hq)) (fun _ h => h) id
            (fun text d hf hd _ hu => ih.sub (includesInto_behind ⟨text, hf, hd⟩ hu))
            (fun text d v hf hd hv => ih.lib T _ fun _ hq => hT _ (Relation.ReflTransGen.head (.inr ⟨d, v, ⟨text, hf, hd⟩, hv, rfl⟩) hq))
            (fun s1 l _ hg hx1 g hl => hR.lib p s s1 l hg hx1 g hl) hw hx }

end

/-! ## Without a further invariant -/

/-- No further invariant; running out of fuel is accepted. -/
def anyCtl : Ctl := ⟨fun _ => True, True, fun _ _ _ _ _ _ _ => trivial⟩

theorem anyRegs (E : Env) : Regs E anyCtl := ⟨fun _ _ _ _ _ _ _ _ => trivial, fun _ _ _ _ _ _ _ _ => trivial⟩

/-! ## Each file once -/

/-- Every library and data type is the one registered for its location. -/
structure Own (s : St) : Prop where
  lib : ∀ (i : Nat) (l : Lib), s.libs[i]? = some l → getFragment s l.location = some (.library i)
  dt : ∀ (i : Nat) (l : DT), s.dts[i]? = some l → getFragment s l.location = some (.dataType i)

theorem Own.step {s s' : St} {T : String → Prop} (h : Own s) (g : G True (Perm.top T) s s') (hl : s'.libs.length = s.libs.length) (hd : s'.dts.length = s.dts.length) : Own s' where
  lib := fun i l hi => by
    have hlt : i < s.libs.length := hl ▸ (List.getElem?_eq_some_iff.1 hi).1
    obtain ⟨l', h1, h2⟩ := g.libLoc i _ (List.getElem?_eq_getElem hlt)
    rw [h1] at hi; cases hi
    rw [h2]
    exact g.frag _ _ (h.lib i _ (List.getElem?_eq_getElem hlt))
  dt := fun i l hi => by
    have hlt : i < s.dts.length := hd ▸ (List.getElem?_eq_some_iff.1 hi).1
    obtain ⟨l', h1, h2⟩ := g.dtLoc i _ (List.getElem?_eq_getElem hlt)
    rw [h1] at hi; cases hi
    rw [h2]
    exact g.frag _ _ (h.dt i _ (List.getElem?_eq_getElem hlt))

/-- Every fragment is registered; running out of fuel is accepted. -/
def ownCtl : Ctl := ⟨Own, True, fun _ _ _ h g hl hd => h.step g hl hd⟩

theorem ownRegs {E : Env} (h : NoWayBack E) : Regs E ownCtl where
  lib := fun path s s1 l hg hx g hl => by
    have hn : getFragment s1 path = none := by
      cases hf : getFragment s1 path with
      | none => rfl
      | some f =>
        rcases g.fresh path f hf with h1 | ⟨r, h1, h2⟩
        · rw [hg] at h1; cases h1
        · exact absurd h2 (h path r h1)
    have g' : G False (only fun _ => True) s1 (regLib s1 path l) := G.regLib trivial
    have e := regLib_eq s1 path l
    constructor
    · intro i l' hi
      rw [e] at hi
      rcases getElem?_snoc hi with ⟨h1, _⟩ | ⟨rfl, rfl⟩
      · exact g'.frag _ _ (hx.lib i l' h1)
      · rw [e, hl]
        show OMap.get _ path = _
        rw [getFragment_reg]; simp [hn]
    · intro i l' hi
      rw [e] at hi
      exact g'.frag _ _ (hx.dt i l' hi)
  dt := fun path s s1 l hg hx g hl => by
    have hn : getFragment s1 path = none := by
      cases hf : getFragment s1 path with
      | none => rfl
      | some f =>
        rcases g.fresh path f hf with h1 | ⟨r, h1, h2⟩
        · rw [hg] at h1; cases h1
        · exact absurd h2 (h path r h1)
    have g' : G False (only fun _ => True) s1 (regDT s1 path l) := G.regDT trivial
    have e := regDT_eq s1 path l
    constructor
    · intro i l' hi
      rw [e] at hi
      exact g'.frag _ _ (hx.lib i l' hi)
    · intro i l' hi
      rw [e] at hi
      rcases getElem?_snoc hi with ⟨h1, _⟩ | ⟨rfl, rfl⟩
      · exact g'.frag _ _ (hx.dt i l' h1)
      · rw [e, hl]
        show OMap.get _ path = _
        rw [getFragment_reg]; simp [hn]

/-! ## Calls end -/

/-- From some bound on. -/
def Ev (p : Nat → Prop) : Prop := ∃ N, ∀ n, N ≤ n → p n

theorem Ev.of {p : Nat → Prop} (h : ∀ n, p n) : Ev p := ⟨0, fun n _ => h n⟩

theorem Ev.and {p q : Nat → Prop} (h : Ev p) (k : Ev q) : Ev fun n => p n ∧ q n := by
  obtain ⟨N, h⟩ := h
  obtain ⟨M, k⟩ := k
  exact ⟨max N M, fun n hn => ⟨h n (by omega), k n (by omega)⟩⟩

theorem Ev.mono {p q : Nat → Prop} (h : Ev p) (k : ∀ n, p n → q n) : Ev q := by
  obtain ⟨N, h⟩ := h
  exact ⟨N, fun n hn => k n (h n hn)⟩

theorem Ev.succ {p q : Nat → Prop} (h : Ev p) (k : ∀ n, p n → q (n + 1)) : Ev q := by
  obtain ⟨N, h⟩ := h
  refine ⟨N + 1, fun n hn => ?_⟩
  cases n with
  | zero => omega
  | succ n => exact k n (h n (by omega))

theorem Ev.all {γ : Type} {p : γ → Nat → Prop} : ∀ (l : List γ), (∀ x ∈ l, Ev (p x)) → Ev fun n => ∀ x ∈ l, p x n
  | [], _ => Ev.of fun _ _ h => by cases h
  | x :: l, h => ((h x (List.mem_cons_self ..)).and (Ev.all l fun y hy => h y (List.mem_cons_of_mem _ hy))).mono fun _ ⟨h1, h2⟩ y hy => by
    rcases List.mem_cons.1 hy with rfl | hy
    · exact h1
    · exact h2 y hy

theorem Ev.imp {p : Nat → Prop} {a : Prop} (h : a → Ev p) : Ev fun n => a → p n := by
  by_cases ha : a
  · exact (h ha).mono fun _ hp _ => hp
  · exact Ev.of fun _ h => absurd h ha

section
variable {E : Env} {K : Ctl} {T : String → Prop}

/-- If the files it includes can be loaded, a type can be made from a node and from all nodes within. -/
theorem ev_sub (loc : String) : ∀ v : YNode, (∀ t, Within t v → t.tag = "!include" → Ev fun n => TypeSpec E K (fun _ => True) (calls E n) (E.joinDir loc t.value)) →
    Ev fun n => Sub E K (fun _ => True) (calls E n) loc v
  | .mk k tag val content, h => by
    have hc : Ev fun n => ∀ u ∈ content, Sub E K (fun _ => True) (calls E n) loc u :=
      Ev.all content fun u hu => ev_sub loc u fun t ht => h t (.step hu ht)
    have hi : Ev fun n => IncSpec E K (fun _ => True) (calls E n) loc (.mk k tag val content) :=
      Ev.imp fun ht => (h _ (.refl _) ht).mono fun _ h => ⟨h, trivial⟩
    have hs : Ev fun n => ShapeSpec E K (fun _ => True) (calls E n) (.mk k tag val content) loc :=
      (hc.and hi).succ fun n ⟨h1, h2⟩ => fun P s name hw hx => makeNewShapeYAML_run ⟨h1, h2⟩ hw hx
    refine ((hc.and hi).and hs).mono fun n ⟨⟨h1, h2⟩, h3⟩ t ht => ?_
    cases ht with
    | refl => exact ⟨h3, h2⟩
    | step hu hw => exact h1 _ hu t hw
  termination_by v => sizeOf v
  decreasing_by
    have := List.sizeOf_lt_of_mem hu
    simp only [YNode.mk.sizeOf_spec]
    omega

theorem ev_shape {loc : String} {v : YNode} (h : ∀ t, Within t v → t.tag = "!include" → Ev fun n => TypeSpec E K (fun _ => True) (calls E n) (E.joinDir loc t.value)) :
    Ev fun n => ShapeSpec E K (fun _ => True) (calls E n) v loc := (ev_sub loc v h).mono fun _ h => h.shape

end

/-- How many of the files are not registered. -/
def missing (files : List String) (s : St) : Nat := (files.filter fun p => (getFragment s p).isNone).length

theorem missing_le {files : List String} {s s' : St} (h : ∀ p f, getFragment s p = some f → ∃ f', getFragment s' p = some f') : missing files s' ≤ missing files s := by
  unfold missing
  apply List.Sublist.length_le
  apply List.monotone_filter_right
  intro p hp
  cases hs : getFragment s p with
  | none => rfl
  | some f =>
    obtain ⟨f', hf'⟩ := h p f hs
    rw [hf'] at hp; cases hp

theorem missing_lt {files : List String} {s s' : St} (h : ∀ p f, getFragment s p = some f → ∃ f', getFragment s' p = some f') {p : String} (hp : p ∈ files)
    (hn : getFragment s p = none) {f : FragRef} (hf : getFragment s' p = some f) : missing files s' < missing files s := by
  induction files with
  | nil => cases hp
  | cons q l ih =>
    have hle : missing l s' ≤ missing l s := missing_le h
    have e : ∀ t, missing (q :: l) t = (if (getFragment t q).isNone then 1 else 0) + missing l t := by
      intro t; unfold missing; rw [List.filter_cons]; split <;> simp [Nat.add_comm]
    rw [e, e]
    rcases List.mem_cons.1 hp with rfl | hp
    · rw [hn, hf]; simp; omega
    · have := ih hp
      have : (if (getFragment s' q).isNone then 1 else 0) ≤ (if (getFragment s q).isNone then 1 else 0) := by
        cases hs : getFragment s q with
        | none => simp; split <;> omega
        | some f' =>
          obtain ⟨f'', hf''⟩ := h q f' hs
          rw [hf'']; simp
      omega

/-- Fewer than `k` files are not registered; running out of fuel is not accepted. -/
def leftCtl (files : List String) (k : Nat) : Ctl :=
  ⟨fun s => missing files s < k, False, fun _ _ _ h g _ _ => Nat.lt_of_le_of_lt (missing_le fun p f hf => ⟨f, g.frag p f hf⟩) h⟩

theorem left_lib {E : Env} {files : List String} {k : Nat} {T : String → Prop} {s s1 : St} {path : String} {l : Lib} (hx : (leftCtl files (k + 1)).X s) (hp : path ∈ files)
    (hg : getFragment s path = none) (g : G False (only T) s s1) : (leftCtl files k).X (regLib s1 path l) := by
  obtain ⟨f, hf⟩ := regLib_registered (s := s1) (path := path) (l := l)
  have g' : G False (only fun _ => True) s1 (regLib s1 path l) := G.regLib trivial
  have := missing_lt (files := files) (fun p f hf => ⟨f, g'.frag p f (g.frag p f hf)⟩) hp hg hf
  have hx : missing files s < k + 1 := hx
  show missing files _ < k
  omega

theorem left_dt {E : Env} {files : List String} {k : Nat} {T : String → Prop} {s s1 : St} {path : String} {l : DT} (hx : (leftCtl files (k + 1)).X s) (hp : path ∈ files)
    (hg : getFragment s path = none) (g : G False (only T) s s1) : (leftCtl files k).X (regDT s1 path l) := by
  obtain ⟨f, hf⟩ := regDT_registered (s := s1) (path := path) (d := l)
  have g' : G False (only fun _ => True) s1 (regDT s1 path l) := G.regDT trivial
  have := missing_lt (files := files) (fun p f hf => ⟨f, g'.frag p f (g.frag p f hf)⟩) hp hg hf
  have hx : missing files s < k + 1 := hx
  show missing files _ < k
  omega

theorem left_lt {files : List String} {k : Nat} (s : St) (h : (leftCtl files k).X s) : (leftCtl files (k + 1)).X s := by
  have h : missing files s < k := h
  show missing files s < k + 1
  omega

theorem includes_file {E : Env} {p q : String} (h : Includes E p q) : E.file p ≠ none := by
  obtain ⟨d, t, ⟨text, h1, _⟩, _⟩ := h
  rw [h1]; simp

/-- Includes without cycle among finitely many files can be followed only finitely often. -/
theorem includes_wf {E : Env} (hf : FinitelyManyFiles E) (h : NoIncludeCycle E) : WellFounded fun q p => Includes E p q := by
  obtain ⟨files, hfiles⟩ := hf
  let r : {p // p ∈ files} → {p // p ∈ files} → Prop := fun q p => Relation.TransGen (Includes E) p.1 q.1
  haveI : Finite {p // p ∈ files} := List.finite_toSet files |>.to_subtype
  haveI : IsTrans _ r := ⟨fun a b c h1 h2 => h2.trans h1⟩
  haveI : Std.Irrefl r := ⟨fun a h1 => h a.1 h1⟩
  have hwf : WellFounded r := Finite.wellFounded_of_trans_of_irrefl r
  have hin : ∀ p : {p // p ∈ files}, Acc (fun q p => Includes E p q) p.1 := fun p => by
    induction p using hwf.induction with
    | _ p ih =>
      refine ⟨_, fun q hq => ?_⟩
      by_cases hq' : E.file q ≠ none
      · exact ih ⟨q, hfiles q hq'⟩ (.single hq)
      · exact ⟨_, fun x hx => absurd (includes_file hx) hq'⟩
  refine ⟨fun p => ?_⟩
  by_cases hp : E.file p ≠ none
  · exact hin ⟨p, hfiles p hp⟩
  · exact ⟨_, fun x hx => absurd (includes_file hx) hp⟩

section
variable {E : Env} {files : List String} (hfiles : ∀ p, E.file p ≠ none → p ∈ files) (hwf : WellFounded fun q p => Includes E p q)
include hfiles hwf

theorem ev_types {k : Nat} (ih : Ev fun n => ∀ p, LibSpec E (leftCtl files k) (fun _ => True) (calls E n) p) (p : String) :
    Ev fun n => TypeSpec E (leftCtl files (k + 1)) (fun _ => True) (calls E n) p := by
  induction p using hwf.induction with
  | _ p hrec =>
    have hd : Ev fun n => ∀ d, Document E p d → ∀ u ∈ (docRoot d).content, Sub E (leftCtl files (k + 1)) (fun _ => True) (calls E n) p u := by
      by_cases hdoc : ∃ d, Document E p d
      · obtain ⟨d, hd⟩ := hdoc
        refine (Ev.all (docRoot d).content fun u hu => ev_sub p u fun t ht htag => hrec _ ⟨d, t, hd, within_content ht hu, htag, rfl⟩).mono fun n h d' hd' => ?_
        obtain ⟨t1, h1, h2⟩ := hd
        obtain ⟨t2, h3, h4⟩ := hd'
        rw [h1] at h3; cases h3; rw [h2] at h4; cases h4
        exact h
      · exact Ev.of fun _ d hd => absurd ⟨d, hd⟩ hdoc
    have hj : ∀ text, Ev fun n => ShapeSpec E (leftCtl files (k + 1)) (fun _ => True) (calls E n) (.mk .mapping "" "" [YNode.str "type", YNode.str text]) p :=
      fun text => ev_shape fun t ht htag => (not_within_json ht htag).elim
    have hJ : Ev fun n => ∀ text, E.file p = some text → ShapeSpec E (leftCtl files (k + 1)) (fun _ => True) (calls E n) (.mk .mapping "" "" [YNode.str "type", YNode.str text]) p := by
      cases hf : E.file p with
      | none => exact Ev.of fun _ _ h => by cases h
      | some text => exact (hj text).mono fun _ h text' h' => by cases h'; exact h
    have hA : Ev fun n => ∀ d, Document E p d → ∀ fs, (∀ u ∈ fs, u ∈ (docRoot d).content) →
        ShapeSpec E (leftCtl files (k + 1)) (fun _ => True) (calls E n) (.mk .mapping "" "" fs) p :=
      hd.succ fun n h d hd fs hfs P s name hw hx =>
        makeNewShapeYAML_run ⟨fun u hu => h d hd u (hfs u hu), fun ht => absurd ht (by simp [YNode.tag])⟩ hw hx
    refine (hA.and (hJ.and ih)).succ fun n ⟨h1, h2, h3⟩ P s hw hx => ?_
    exact parseDataType_run (K' := leftCtl files k) trivial (fun _ h => h) left_lt id (fun text hf _ => h2 text hf)
      (fun text d hf hd _ fs hfs => h1 d ⟨text, hf, hd⟩ fs hfs) (fun _ _ _ _ _ _ _ => h3 _)
      (fun s1 l hp hg _ g _ => left_dt (E := E) hx (hfiles p hp) hg g) hw hx

theorem ev_libs {k : Nat} (ih : Ev fun n => ∀ p, LibSpec E (leftCtl files k) (fun _ => True) (calls E n) p)
    (p : String) : Ev fun n => LibSpec E (leftCtl files (k + 1)) (fun _ => True) (calls E n) p := by
  have hd : Ev fun n => ∀ d, Document E p d → ∀ u ∈ (docRoot d).content, Sub E (leftCtl files (k + 1)) (fun _ => True) (calls E n) p u := by
    by_cases hdoc : ∃ d, Document E p d
    · obtain ⟨d, hd⟩ := hdoc
      refine (Ev.all (docRoot d).content fun u hu => ev_sub p u fun t ht htag => ev_types hfiles hwf ih _).mono fun n h d' hd' => ?_
      obtain ⟨t1, h1, h2⟩ := hd
      obtain ⟨t2, h3, h4⟩ := hd'
      rw [h1] at h3; cases h3; rw [h2] at h4; cases h4
      exact h
    · exact Ev.of fun _ d hd => absurd ⟨d, hd⟩ hdoc
  refine (hd.and ih).succ fun n ⟨h1, h3⟩ P s hw hx => ?_
  exact parseLibrary_run (K' := leftCtl files k) trivial (fun _ h => h) left_lt id
    (fun text d hf hd _ hu => h1 d ⟨text, hf, hd⟩ _ hu) (fun _ _ _ _ _ _ => h3 _)
    (fun s1 l hp hg _ g _ => left_lib (E := E) hx (hfiles p hp) hg g) hw hx

/-- All calls end, if there are finitely many files and no cycle of includes. -/
theorem ev_calls : ∀ k, Ev fun n => ∀ p, LibSpec E (leftCtl files k) (fun _ => True) (calls E n) p ∧ TypeSpec E (leftCtl files k) (fun _ => True) (calls E n) p
  | 0 => Ev.of fun _ _ => ⟨fun _ _ _ hx => absurd hx (Nat.not_lt_zero _), fun _ _ _ hx => absurd hx (Nat.not_lt_zero _)⟩
  | k + 1 => by
    have ih : Ev fun n => ∀ p, LibSpec E (leftCtl files k) (fun _ => True) (calls E n) p := (ev_calls k).mono fun n h p => (h p).1
    have h1 := Ev.all files (p := fun p n => LibSpec E (leftCtl files (k + 1)) (fun _ => True) (calls E n) p ∧ TypeSpec E (leftCtl files (k + 1)) (fun _ => True) (calls E n) p)
      fun p _ => (ev_libs hfiles hwf ih p).and (ev_types hfiles hwf ih p)
    have h2 : Ev fun n => ∀ p, E.file p = none → LibSpec E (leftCtl files (k + 1)) (fun _ => True) (calls E n) p ∧ TypeSpec E (leftCtl files (k + 1)) (fun _ => True) (calls E n) p :=
      (Ev.of (p := fun _ => True) fun _ => trivial).succ fun n _ p hp => by
        constructor
        · exact fun P s hw hx => parseLibrary_run (K' := leftCtl files (k + 1)) (T' := fun _ => True) trivial (fun _ h => h) (fun _ h => h) id
            (fun text d hf => by rw [hp] at hf; cases hf) (fun text d v hf => by rw [hp] at hf; cases hf) (fun _ _ h => absurd hp h) hw hx
        · exact fun P s hw hx => parseDataType_run (K' := leftCtl files (k + 1)) (T' := fun _ => True) trivial (fun _ h => h) (fun _ h => h) id
            (fun text hf => by rw [hp] at hf; cases hf) (fun text d hf => by rw [hp] at hf; cases hf) (fun text d v hf => by rw [hp] at hf; cases hf)
            (fun _ _ h => absurd hp h) hw hx
    refine (h1.and h2).mono fun n ⟨h1, h2⟩ p => ?_
    by_cases hp : E.file p = none
    · exact h2 p hp
    · exact h1 p (hfiles p hp)

end

end GoRaml.Load
