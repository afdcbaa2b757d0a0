import Verif.Lemmas.Tame

/-!
# Parsing without panics: values, examples and annotations
-/

namespace GoRaml.Tame

open GoRaml GoRaml.Spec GoRaml.Load

section
variable {α β : Type}

/-- No panic; a result satisfies `P`. -/
def Gets (P : α → Prop) (o : Out α) : Prop :=
  match o with
  | .ok x => P x
  | .panic _ => False
  | _ => True

theorem Gets.bind {P : α → Prop} {Q : β → Prop} {o : Out α} {f : α → Out β} (h : Gets P o) (k : ∀ x, P x → Gets Q (f x)) : Gets Q (o.bind f) := by
  cases o with
  | ok x => exact k x h
  | err e => trivial
  | panic e => exact h.elim
  | diverge => trivial

theorem Gets.orErr {P : α → Prop} {e : String} {o : Option α} (h : ∀ x, o = some x → P x) : Gets P (orErr e o) := by
  cases o with
  | none => trivial
  | some x => exact h x rfl

theorem Gets.ite {P : α → Prop} {p : Prop} [Decidable p] {a b : Out α} (h : p → Gets P a) (k : ¬ p → Gets P b) : Gets P (if p then a else b) := by
  by_cases hp : p
  · rw [if_pos hp]; exact h hp
  · rw [if_neg hp]; exact k hp

theorem Gets.ne {P : α → Prop} {o : Out α} (h : Gets P o) (e : String) : o ≠ .panic e := by
  rintro rfl; exact h

theorem Gets.ok {P : α → Prop} {o : Out α} {x : α} (h : Gets P o) (e : o = .ok x) : P x := by
  subst e; exact h

theorem Gets.imp {P Q : α → Prop} {o : Out α} (h : Gets P o) (k : ∀ x, P x → Q x) : Gets Q o := by
  cases o with
  | ok x => exact k x h
  | err e => trivial
  | panic e => exact h.elim
  | diverge => trivial

theorem Gets.foldl {γ : Type} {P : α → Prop} {f : Out α → γ → Out α} : ∀ (l : List γ) (o : Out α), (∀ x ∈ l, ∀ o, Gets P o → Gets P (f o x)) → Gets P o → Gets P (l.foldl f o)
  | [], _, _, h => h
  | x :: l, o, hf, h => Gets.foldl l (f o x) (fun y hy => hf y (by simp [hy])) (hf x (by simp) o h)

end

variable {E : Env} {K : Vals E} {s : St} {Bad : St → Prop} {F : Addr → Prop}

theorem Runs.gets {α : Type} {o : Out α} {P : α → Prop} {Q : α → St → Prop} (hw : Fit K s) (h : Gets P o) (hq : ∀ x, P x → Q x s) : Runs K Bad F (M.lift o) s Q :=
  Runs.lift hw h.ne fun x e => hq x (h.ok e)

/-! ## Nodes -/

theorem shaped_content {v u : YNode} (h : Shaped v) (hu : u ∈ v.content) : Shaped u := fun t ht => h t (.step hu ht)

theorem shaped_even {v : YNode} (h : Shaped v) (hk : v.kind = .mapping) : v.content.length % 2 = 0 := (h v (.refl v)).1 hk

theorem shaped_mk {v : YNode} (h1 : v.kind = .mapping → v.content.length % 2 = 0) (h2 : v.kind = .document → v.content ≠ []) (h3 : ∀ u ∈ v.content, Shaped u) : Shaped v := by
  intro u hu
  cases hu with
  | refl => exact ⟨h1, h2⟩
  | step hm hw => exact h3 _ hm _ hw

theorem even_tail {a b : YNode} {l : List YNode} (h : (a :: b :: l).length % 2 = 0) : l.length % 2 = 0 := by
  simp only [List.length_cons] at h; omega

theorem entry_value_mem {k v : YNode} {l : List YNode} (h : Entry k v l) : v ∈ l := by
  induction h with
  | here => simp
  | there _ ih => simp [ih]

theorem entry_append {k v : YNode} {l l' : List YNode} (hl : l.length % 2 = 0) (h : Entry k v (l ++ l')) : Entry k v l ∨ Entry k v l' := by
  induction l using List.twoStepInduction with
  | nil => exact .inr h
  | singleton x => simp at hl
  | cons_cons a b l ih _ =>
    cases h with
    | here => exact .inl .here
    | there h =>
      exact (ih (even_tail hl) h).imp .there id

/-! ## Values -/

theorem set_vals {m : List (String × GoVal)} {k : String} {d : GoVal} (hm : ∀ x ∈ m, K.V x.2) (hd : K.V d) : ∀ x ∈ OMap.set m k d, K.V x.2 := fun x hx =>
  (Whole.mem_omap_set hx).elim (hm x) fun e => by rw [e]; exact hd

theorem gets_scalar {inc : String → Out GoVal} (hi : ∀ x, Gets K.V (inc x)) (n : YNode) : Gets K.V (scalarNodeToDataNode E inc n) :=
  Gets.ite (fun _ => K.str _) fun _ => Gets.ite (fun _ => K.str _) fun _ => Gets.ite (fun _ => hi _) fun _ => Gets.orErr fun _ h => K.any _ _ h

mutual

theorem gets_yaml {inc : String → Out GoVal} (hi : ∀ x, Gets K.V (inc x)) : ∀ n : YNode, Shaped n → Gets K.V (yamlNodeToDataNode E inc n)
  | .mk kind tag value content, h => by
    have hc : ∀ u ∈ content, Shaped u := fun u hu => shaped_content h hu
    cases kind with
    | zero => simp only [yamlNodeToDataNode]; trivial
    | «alias» => simp only [yamlNodeToDataNode]; trivial
    | document => simp only [yamlNodeToDataNode]; exact gets_first hi content hc ((h _ (.refl _)).2 rfl)
    | scalar => simp only [yamlNodeToDataNode]; exact gets_scalar hi _
    | mapping => simp only [yamlNodeToDataNode]; exact Gets.ite (fun _ => trivial) fun _ => gets_pairs hi content [] hc fun _ h => by cases h
    | sequence => simp only [yamlNodeToDataNode]; exact gets_items hi content [] hc fun _ h => by cases h

theorem gets_first {inc : String → Out GoVal} (hi : ∀ x, Gets K.V (inc x)) : ∀ l : List YNode, (∀ u ∈ l, Shaped u) → l ≠ [] → Gets K.V (yamlFirstToDataNode E inc l)
  | [], _, h => absurd rfl h
  | n :: _, h, _ => by simp only [yamlFirstToDataNode]; exact gets_yaml hi n (h n (by simp))

theorem gets_pairs {inc : String → Out GoVal} (hi : ∀ x, Gets K.V (inc x)) : ∀ (l : List YNode) (p : List (String × GoVal)), (∀ u ∈ l, Shaped u) → (∀ x ∈ p, K.V x.2) →
    Gets K.V (yamlPairsToDataNode E inc l p)
  | [], _, _, h => by simp only [yamlPairsToDataNode]; exact K.map _ h
  | [_], _, _, h => by simp only [yamlPairsToDataNode]; exact K.map _ h
  | k :: v :: rest, p, hl, h => by
    simp only [yamlPairsToDataNode]
    exact Gets.bind (gets_yaml hi v (hl v (by simp))) fun d hd => gets_pairs hi rest _ (fun u hu => hl u (by simp [hu])) (set_vals h hd)

theorem gets_items {inc : String → Out GoVal} (hi : ∀ x, Gets K.V (inc x)) : ∀ (l : List YNode) (p : List GoVal), (∀ u ∈ l, Shaped u) → (∀ x ∈ p, K.V x) →
    Gets K.V (yamlItemsToDataNode E inc l p)
  | [], _, _, h => by simp only [yamlItemsToDataNode]; exact K.arr _ h
  | n :: rest, p, hl, h => by
    simp only [yamlItemsToDataNode]
    refine Gets.bind (gets_yaml hi n (hl n (by simp))) fun d hd => gets_items hi rest _ (fun u hu => hl u (by simp [hu])) fun x hx => ?_
    rcases List.mem_append.1 hx with hx | hx
    · exact h x hx
    · cases List.mem_singleton.1 hx; exact hd

end

/-- The YAML decoder yields proper trees. -/
abbrev Yaml (E : Env) : Prop := ∀ text d, E.yamlParse text = some d → Shaped d

theorem gets_included (hy : Yaml E) {loc : String} (x : String) : Gets K.V (includedData E loc x) :=
  Gets.bind (P := fun _ => True) (Gets.orErr fun _ _ => trivial) fun _ _ => Gets.ite
    (fun _ => Gets.bind (P := Shaped) (Gets.orErr fun d h => hy _ d h) fun d hd => gets_yaml (inc := nestedInclude) (fun _ => show Gets K.V (Out.err _) from trivial) d hd) fun _ => K.str _

theorem gets_root (hy : Yaml E) {v : YNode} {loc : String} (hv : Shaped v) : Gets K.V (makeRootNode E v loc) :=
  Gets.ite
    (fun _ => Gets.bind (P := fun _ => True) (Gets.orErr fun _ _ => trivial) fun _ _ => Gets.ite (fun _ => Gets.orErr fun _ h => K.first _ _ h) fun _ => Gets.ite
      (fun _ => Gets.bind (P := Shaped) (Gets.orErr fun d h => hy _ d h) fun d hd => gets_yaml (gets_included hy) d hd) fun _ => K.str _)
    fun _ => Gets.ite (fun _ => Gets.orErr fun _ h => K.json _ _ h) fun _ => gets_yaml (gets_included hy) v hv

/-- No panic, whatever the result. -/
abbrev Calm {α : Type} (o : Out α) : Prop := Gets (fun _ => True) o

theorem calm_enum (hy : Yaml E) {v : YNode} {loc : String} (K : Vals E) (hv : Shaped v) : Calm (makeEnum E v loc) :=
  Gets.ite (fun _ => trivial) fun _ => Gets.foldl _ _ (fun _ hx _ ho => Gets.bind ho fun _ _ => Gets.bind (gets_root (K := K) hy (shaped_content hv hx)) fun _ _ => trivial) trivial

theorem calm_fileTypes (hy : Yaml E) {v : YNode} {loc : String} (K : Vals E) (hv : Shaped v) : Calm (makeFileTypes E v loc) :=
  Gets.ite (fun _ => trivial) fun _ => Gets.foldl _ _ (fun _ hx _ ho => Gets.bind ho fun _ _ => Gets.ite (fun _ => trivial) fun _ =>
    Gets.bind (gets_root (K := K) hy (shaped_content hv hx)) fun _ _ => trivial) trivial

theorem calm_orErr {α : Type} {e : String} {o : Option α} : Calm (orErr e o) := Gets.orErr fun _ _ => trivial

theorem calm_annotationName {key : String} (h : isCustomDomainExtensionNode key = true) : Calm (annotationName key) := by
  unfold annotationName
  refine Gets.ite (fun hl => ?_) fun _ => Gets.ite (fun _ => trivial) fun _ => trivial
  unfold isCustomDomainExtensionNode at h
  exfalso
  match hk : key.toList with
  | [] => simp [hk] at h
  | [c] => simp [hk] at h; exact absurd (h.1.symm.trans h.2) (by decide)
  | a :: b :: l => rw [hk] at hl; simp at hl

theorem calm_findValueKey : ∀ (l : List YNode), l.length % 2 = 0 → Gets (fun r => ∀ v, r = some v → v ∈ l) (findValueKey l)
  | [], _ => fun _ h => by cases h
  | [_], h => by simp at h
  | k :: v :: rest, h => by
    unfold findValueKey
    refine Gets.ite (fun _ => fun u hu => by cases hu; simp) fun _ => ?_
    exact (calm_findValueKey rest (even_tail h)).imp fun r hr v hv => by simp [hr v hv]

/-! ## Annotations and examples -/

section
variable (hy : Yaml E)

include hy

theorem runs_extension {loc : String} {k v : YNode} (hw : Fit K s) (hk : isCustomDomainExtensionNode k.value = true) (hv : Shaped v) :
    Runs K Bad F (unmarshalCustomDomainExtension E loc k v) s fun _ s' => s'.bases = s.bases := by
  unfold unmarshalCustomDomainExtension
  refine Runs.bind (Runs.gets (Q := fun _ s' => s' = s) hw (calm_annotationName hk) fun _ _ => rfl) fun name s1 hw1 _ e1 => ?_
  subst e1
  refine Runs.bind (Runs.gets (Q := fun d s' => s' = s1 ∧ K.V d) hw (gets_root (K := K) hy hv) fun _ h => ⟨rfl, h⟩) fun d s2 hw2 _ e2 => ?_
  obtain ⟨rfl, hd⟩ := e2
  exact Runs.newExt (x := fun h => (name, h.domainExts.length)) hw hd

theorem runs_exampleDecode {loc : String} {k v : YNode} {ex : Example} (hw : Fit K s) (hv : Shaped v) :
    Runs K Bad F (exampleDecode E loc k v ex) s fun _ s' => s'.bases = s.bases := by
  have hr : ∀ {α : Type} {o : Out α} {f : α → M St Example} , Calm o → (∀ x, Runs K Bad F (f x) s fun _ s' => s'.bases = s.bases) → Runs K Bad F (M.bind (M.lift o) f) s fun _ s' => s'.bases = s.bases := by
    intro α o f ho hf
    refine Runs.bind (Runs.gets (Q := fun _ s' => s' = s) hw ho fun _ _ => rfl) fun x s1 hw1 _ e1 => ?_
    subst e1
    exact hf x
  unfold exampleDecode
  split
  · exact hr calm_orErr fun _ => Runs.ret hw rfl
  · split
    · exact hr calm_orErr fun _ => Runs.ret hw rfl
    · split
      · exact hr calm_orErr fun _ => Runs.ret hw rfl
      · split
        · rename_i h
          exact Runs.bind (runs_extension hy hw h hv) fun _ s1 hw1 _ e => Runs.ret hw1 e
        · exact Runs.ret hw rfl

theorem runs_exampleEntries {loc : String} : ∀ (l : List YNode) (ex : Example) (s : St), Fit K s → (∀ u ∈ l, Shaped u) → l.length % 2 = 0 →
    Runs K Bad F (exampleEntries E loc l ex) s fun _ s' => s'.bases = s.bases
  | [], _, _, hw, _, _ => Runs.ret hw rfl
  | [_], _, _, _, _, h => by simp at h
  | k :: v :: rest, ex, s, hw, hl, h => by
    unfold exampleEntries
    refine Runs.bind (runs_exampleDecode hy hw (hl v (by simp))) fun ex' s1 hw1 _ e => ?_
    exact (runs_exampleEntries rest ex' s1 hw1 (fun u hu => hl u (by simp [hu])) (even_tail h)).post fun _ _ _ _ e' => e'.trans e

theorem runs_makeExample {loc : String} {v : YNode} (hw : Fit K s) (hv : Shaped v) :
    Runs K Bad F (makeExample E v loc) s fun ex s' => K.V ex.data ∧ s'.bases = s.bases := by
  have hroot : ∀ (s : St) (u : YNode) (f : GoVal → Example), Fit K s → Shaped u → (∀ d, (f d).data = d) →
      Runs K Bad F (M.bind (M.lift (makeRootNode E u loc)) fun d => M.ret (f d)) s fun ex s' => K.V ex.data ∧ s'.bases = s.bases := by
    intro s u f hw hu hf
    refine Runs.bind (Runs.gets (Q := fun d s' => s' = s ∧ K.V d) hw (gets_root (K := K) hy hu) fun _ h => ⟨rfl, h⟩) fun d s2 hw2 _ e2 => ?_
    obtain ⟨rfl, hd⟩ := e2
    exact Runs.ret hw ⟨by rw [hf]; exact hd, rfl⟩
  unfold makeExample
  split
  · rename_i hk
    have he := shaped_even hv hk
    refine Runs.bind (Runs.gets (Q := fun r s' => s' = s ∧ ∀ v', r = some v' → v' ∈ v.content) hw (calm_findValueKey _ he) fun _ h => ⟨rfl, h⟩) fun vk s1 hw1 _ e1 => ?_
    obtain ⟨rfl, hvk⟩ := e1
    cases vk with
    | none => exact hroot _ v _ hw hv fun _ => rfl
    | some valueKey =>
      refine Runs.bind (runs_exampleEntries hy v.content _ s1 hw (fun u hu => shaped_content hv hu) he) fun ex s2 hw2 _ e2 => ?_
      exact (hroot _ valueKey (fun d => { ex with data := d }) hw2 (shaped_content hv (hvk _ rfl)) fun _ => rfl).post fun _ _ _ _ h => ⟨h.1, h.2.trans e2⟩
  · exact hroot _ v _ hw hv fun _ => rfl

theorem runs_namedExamples {loc : String} : ∀ (l : List YNode) (m : OMap Example) (s : St), Fit K s → (∀ u ∈ l, Shaped u) → l.length % 2 = 0 → (∀ e ∈ m, K.V e.2.data) →
    Runs K Bad F (namedExamples E loc l m) s fun m' s' => (∀ e ∈ m', K.V e.2.data) ∧ s'.bases = s.bases
  | [], _, _, hw, _, _, hm => Runs.ret hw ⟨hm, rfl⟩
  | [_], _, _, _, _, h, _ => by simp at h
  | k :: v :: rest, m, s, hw, hl, h, hm => by
    unfold namedExamples
    refine Runs.bind (runs_makeExample hy hw (hl v (by simp))) fun ex s1 hw1 _ e => ?_
    refine (runs_namedExamples rest _ s1 hw1 (fun u hu => hl u (by simp [hu])) (even_tail h) fun x hx => ?_).post fun _ _ _ _ e' => ⟨e'.1, e'.2.trans e.2⟩
    exact (Whole.mem_omap_set hx).elim (hm x) fun e' => by rw [e']; exact e.1

end

end GoRaml.Tame
