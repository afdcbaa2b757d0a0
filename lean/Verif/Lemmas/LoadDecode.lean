import Verif.Lemmas.LoadPrim
import Verif.Spec.Load

/-!
# Loading: decoding keeps the invariant
-/

namespace GoRaml.Load

open GoRaml GoRaml.Spec

/-! ## Outcomes that are not `diverge` -/

section
variable {α β : Type}

theorem noDiv_bind {o : Out α} {f : α → Out β} (h : o ≠ .diverge) (k : ∀ a, f a ≠ .diverge) : o.bind f ≠ .diverge := by
  cases o with
  | ok a => exact k a
  | err e => intro h; cases h
  | panic e => intro h; cases h
  | diverge => exact absurd rfl h

theorem noDiv_ok {a : α} : (Out.ok a) ≠ .diverge := by intro h; cases h

theorem noDiv_err {e : String} : (Out.err e : Out α) ≠ .diverge := by intro h; cases h

theorem noDiv_panic {e : String} : (Out.panic e : Out α) ≠ .diverge := by intro h; cases h

theorem noDiv_orErr {e : String} {o : Option α} : orErr e o ≠ .diverge := by
  cases o <;> intro h <;> cases h

theorem noDiv_ite {p : Prop} [Decidable p] {a b : Out α} (h : a ≠ .diverge) (k : b ≠ .diverge) : (if p then a else b) ≠ .diverge := by
  split <;> assumption

theorem noDiv_scalar {E : Env} {inc : String → Out GoVal} (hi : ∀ x, inc x ≠ .diverge) (n : YNode) : scalarNodeToDataNode E inc n ≠ .diverge :=
  noDiv_ite noDiv_ok (noDiv_ite noDiv_ok (noDiv_ite (hi _) noDiv_orErr))

mutual

theorem noDiv_yaml {E : Env} {inc : String → Out GoVal} (hi : ∀ x, inc x ≠ .diverge) : ∀ n : YNode, yamlNodeToDataNode E inc n ≠ .diverge
  | .mk kind tag value content => by
    cases kind with
    | zero => simp only [yamlNodeToDataNode]; exact noDiv_err
    | «alias» => simp only [yamlNodeToDataNode]; exact noDiv_err
    | document => simp only [yamlNodeToDataNode]; exact noDiv_first hi content
    | scalar => simp only [yamlNodeToDataNode]; exact noDiv_scalar hi _
    | mapping => simp only [yamlNodeToDataNode]; exact noDiv_ite noDiv_err (noDiv_pairs hi content [])
    | sequence => simp only [yamlNodeToDataNode]; exact noDiv_items hi content []

theorem noDiv_first {E : Env} {inc : String → Out GoVal} (hi : ∀ x, inc x ≠ .diverge) : ∀ l : List YNode, yamlFirstToDataNode E inc l ≠ .diverge
  | [] => by simp only [yamlFirstToDataNode]; exact noDiv_panic
  | n :: _ => by simp only [yamlFirstToDataNode]; exact noDiv_yaml hi n

theorem noDiv_pairs {E : Env} {inc : String → Out GoVal} (hi : ∀ x, inc x ≠ .diverge) : ∀ (l : List YNode) (p : List (String × GoVal)), yamlPairsToDataNode E inc l p ≠ .diverge
  | [], _ => by simp only [yamlPairsToDataNode]; exact noDiv_ok
  | [_], _ => by simp only [yamlPairsToDataNode]; exact noDiv_ok
  | k :: v :: rest, p => by simp only [yamlPairsToDataNode]; exact noDiv_bind (noDiv_yaml hi v) fun _ => noDiv_pairs hi rest _

theorem noDiv_items {E : Env} {inc : String → Out GoVal} (hi : ∀ x, inc x ≠ .diverge) : ∀ (l : List YNode) (p : List GoVal), yamlItemsToDataNode E inc l p ≠ .diverge
  | [], _ => by simp only [yamlItemsToDataNode]; exact noDiv_ok
  | n :: rest, p => by simp only [yamlItemsToDataNode]; exact noDiv_bind (noDiv_yaml hi n) fun _ => noDiv_items hi rest _

end

theorem noDiv_included {E : Env} {loc : String} (x : String) : includedData E loc x ≠ .diverge :=
  noDiv_bind noDiv_orErr fun _ => noDiv_ite (noDiv_bind noDiv_orErr fun _ => noDiv_yaml (fun _ => noDiv_err) _) noDiv_ok

theorem noDiv_rootNode {E : Env} {v : YNode} {loc : String} : makeRootNode E v loc ≠ .diverge :=
  noDiv_ite
    (noDiv_bind noDiv_orErr fun _ => noDiv_ite noDiv_orErr (noDiv_ite (noDiv_bind noDiv_orErr fun _ => noDiv_yaml noDiv_included _) noDiv_ok))
    (noDiv_ite noDiv_orErr (noDiv_yaml noDiv_included _))

theorem noDiv_foldl {γ : Type} {f : Out α → γ → Out α} (hf : ∀ o x, o ≠ .diverge → f o x ≠ .diverge) : ∀ (l : List γ) (o : Out α), o ≠ .diverge → l.foldl f o ≠ .diverge
  | [], _, h => h
  | x :: l, o, h => noDiv_foldl hf l (f o x) (hf o x h)

theorem noDiv_enum {E : Env} {v : YNode} {loc : String} : makeEnum E v loc ≠ .diverge :=
  noDiv_ite noDiv_err (noDiv_foldl (fun _ _ h => noDiv_bind h fun _ => noDiv_bind noDiv_rootNode fun _ => noDiv_ok) _ _ noDiv_ok)

theorem noDiv_fileTypes {E : Env} {v : YNode} {loc : String} : makeFileTypes E v loc ≠ .diverge :=
  noDiv_ite noDiv_err (noDiv_foldl (fun _ _ h => noDiv_bind h fun _ => noDiv_ite noDiv_err (noDiv_bind noDiv_rootNode fun _ => noDiv_ok)) _ _ noDiv_ok)

theorem noDiv_identifyStep (st : String × Bool) (n : String) : identifyStep st n ≠ .diverge := by
  unfold identifyStep
  split
  · exact noDiv_ok
  · exact noDiv_ite noDiv_err noDiv_ok

theorem noDiv_identifyLoop : ∀ (l : List YNode) (st : String × Bool), identifyLoop l st ≠ .diverge
  | [], _ => by simp only [identifyLoop]; exact noDiv_ok
  | [_], _ => by simp only [identifyLoop]; exact noDiv_bind (noDiv_identifyStep _ _) fun _ => noDiv_panic
  | _ :: _ :: rest, _ => by simp only [identifyLoop]; exact noDiv_bind (noDiv_identifyStep _ _) fun st' => noDiv_identifyLoop rest st'

theorem noDiv_identify {l : List YNode} : identifyShapeType l ≠ .diverge := noDiv_bind (noDiv_identifyLoop _ _) fun _ => noDiv_ok

theorem noDiv_declare {E : Ext} {n : String} {p : Addr × Option Bool} : declareProperty E n (.ok p) ≠ .diverge :=
  noDiv_ite (noDiv_ite noDiv_err (noDiv_ite noDiv_ok noDiv_err)) noDiv_ok

theorem noDiv_findValueKey : ∀ l : List YNode, findValueKey l ≠ .diverge
  | [] => noDiv_ok
  | [_] => noDiv_panic
  | _ :: _ :: rest => noDiv_ite noDiv_ok (noDiv_findValueKey rest)

theorem noDiv_annotationName {k : String} : annotationName k ≠ .diverge := noDiv_ite noDiv_panic (noDiv_ite noDiv_err noDiv_ok)

theorem noDiv_usesEntries : ∀ (l : List YNode) (m : OMap (String × Option Nat)), usesEntries l m ≠ .diverge
  | [], _ => noDiv_ok
  | [_], _ => noDiv_panic
  | _ :: _ :: rest, _ => noDiv_usesEntries rest _

theorem noDiv_dataTypeEntries : ∀ (l : List YNode) (m : OMap (String × Option Nat)) (fs : List YNode), dataTypeEntries l m fs ≠ .diverge
  | [], _, _ => noDiv_ok
  | [_], _, _ => noDiv_panic
  | k :: v :: rest, m, fs => by
    unfold dataTypeEntries
    exact noDiv_ite (noDiv_dataTypeEntries rest _ _) (noDiv_ite (noDiv_ite (noDiv_dataTypeEntries rest _ _)
      (noDiv_bind (noDiv_usesEntries _ _) fun _ => noDiv_dataTypeEntries rest _ _)) (noDiv_dataTypeEntries rest _ _))

theorem noDiv_checkKind {p t : String} {k : FragmentKind} : checkFragmentKind p t k ≠ .diverge := by
  unfold checkFragmentKind
  refine noDiv_ite noDiv_ok (noDiv_bind ?_ fun _ => noDiv_bind ?_ fun _ => noDiv_ite noDiv_err noDiv_ok)
  · unfold readHead; split
    · exact noDiv_err
    · exact noDiv_ok
  · exact noDiv_ite noDiv_ok (noDiv_ite noDiv_ok (noDiv_ite noDiv_ok noDiv_err))

end

/-! ## What the recursive calls are assumed to do -/

/-- Only paths of `T` may be registered, nothing that exists may be changed. -/
abbrev only (T : String → Prop) : Perm := { f := T }

/-- Making a type from `v`. -/
def ShapeSpec (E : Env) (K : Ctl) (T : String → Prop) (c : Calls) (v : YNode) (loc : String) : Prop :=
  ∀ P s name, W E P s → K.X s → Run E K False P (only T) (c.makeShape v name loc) s (fun a s' => s.bases.length ≤ a ∧ IsBase s' a)

/-- Loading a data type. -/
def TypeSpec (E : Env) (K : Ctl) (T : String → Prop) (c : Calls) (path : String) : Prop :=
  ∀ P s, W E P s → K.X s → Run E K False P (only T) (c.parseDataType path) s (fun i s' => ∃ d, s'.dts[i]? = some d ∧ d.location = path ∧ ∃ f, getFragment s' path = some f)

/-- Loading a library. -/
def LibSpec (E : Env) (K : Ctl) (T : String → Prop) (c : Calls) (path : String) : Prop :=
  ∀ P s, W E P s → K.X s → Run E K False P (only T) (c.parseLibrary path) s (fun i s' => ∃ l, s'.libs[i]? = some l ∧ l.location = path ∧ ∃ f, getFragment s' path = some f)

/-- The files a node includes can be loaded. -/
def IncSpec (E : Env) (K : Ctl) (T : String → Prop) (c : Calls) (loc : String) (t : YNode) : Prop :=
  t.tag = "!include" → TypeSpec E K T c (E.joinDir loc t.value) ∧ T (E.joinDir loc t.value)

/-- Types can be made from all nodes of the tree. -/
def Sub (E : Env) (K : Ctl) (T : String → Prop) (c : Calls) (loc : String) (u : YNode) : Prop :=
  ∀ t, Within t u → ShapeSpec E K T c t loc ∧ IncSpec E K T c loc t

/-- Types can be made from all nodes of the tree but the root. -/
structure Inner (E : Env) (K : Ctl) (T : String → Prop) (c : Calls) (loc : String) (u : YNode) : Prop where
  content : ∀ t ∈ u.content, Sub E K T c loc t
  inc : IncSpec E K T c loc u

section
variable {E : Env} {K : Ctl} {T : String → Prop} {c : Calls} {loc : String} {P π : Perm} {s : St}

theorem Sub.content {u v : YNode} (h : Sub E K T c loc v) (hu : u ∈ v.content) : Sub E K T c loc u := fun t ht => h t (.step hu ht)

theorem Sub.shape {v : YNode} (h : Sub E K T c loc v) : ShapeSpec E K T c v loc := (h v (.refl v)).1

theorem Sub.inner {v : YNode} (h : Sub E K T c loc v) : Inner E K T c loc v := ⟨fun _ ht => h.content ht, (h v (.refl v)).2⟩

/-! ## Facets -/

theorem arrayFacet_run {f : ArrayF} {k : String} {v : YNode} {m : M St ArrayF} (hv : Sub E K T c loc v) (hf : IfSome (IsBase s) f.items) (hw : W E P s) (hx : K.X s)
    (hm : arrayFacet E c loc f k v = some m) : Run E K False P (only T) m s (fun f' s' => IfSome (IsBase s') f'.items) := by
  unfold arrayFacet at hm
  by_cases h1 : k = "minItems"
  · rw [if_pos h1] at hm; cases hm
    refine Run.lift hw hx (noDiv_bind noDiv_orErr fun _ => noDiv_ok) fun x hq => ?_
    cases hd : E.decodeUint v <;> rw [hd] at hq <;> cases hq; exact hf
  rw [if_neg h1] at hm
  by_cases h2 : k = "maxItems"
  · rw [if_pos h2] at hm; cases hm
    refine Run.lift hw hx (noDiv_bind noDiv_orErr fun _ => noDiv_ok) fun x hq => ?_
    cases hd : E.decodeUint v <;> rw [hd] at hq <;> cases hq; exact hf
  rw [if_neg h2] at hm
  by_cases h3 : k = "items"
  · rw [if_pos h3] at hm; cases hm
    refine Run.bind (hv.shape P s "items" hw hx) fun a s' hw' hx' _ hq => Run.ret hw' hx' (ifSome_some hq.2)
  rw [if_neg h3] at hm
  by_cases h4 : k = "uniqueItems"
  · rw [if_pos h4] at hm; cases hm
    refine Run.lift hw hx (noDiv_bind noDiv_orErr fun _ => noDiv_ok) fun x hq => ?_
    cases hd : E.decodeBool v <;> rw [hd] at hq <;> cases hq; exact hf
  rw [if_neg h4] at hm; cases hm

theorem makeDeclared_run {n : String} {v : YNode} (hv : Sub E K T c loc v) (hw : W E P s) (hx : K.X s) :
    Run E K False P (only T) (makeDeclared E c loc n v) s (fun d s' => match d with | .property p => IsBase s' p.base | .pattern _ p => IsBase s' p.base) := by
  unfold makeDeclared
  refine Run.bind (hv.shape P s n hw hx) fun a s1 hw1 hx1 _ hq => ?_
  refine Run.bind (Run.getBase hw1 hx1) fun b s2 hw2 hx2 _ ⟨e, _⟩ => ?_
  subst e
  refine Run.lift hw2 hx2 noDiv_declare fun d hd => ?_
  unfold declareProperty at hd
  simp only [Out.bind] at hd
  split at hd
  · split at hd
    · cases hd
    · split at hd
      · cases hd; exact hq.2
      · cases hd
  · cases hd
    show IsBase _ (nameProperty _ _ _ _ _).base
    unfold nameProperty
    split <;> exact hq.2

theorem unmarshalProperty_run {n : String} {v : YNode} {f : ObjectF} (hv : Sub E K T c loc v) (hf : ShapeIn s (.object f)) (hw : W E P s) (hx : K.X s) :
    Run E K False P (only T) (unmarshalProperty E c loc n v f) s (fun f' s' => ShapeIn s' (.object f')) := by
  have hmono : ∀ {s1 : St}, Longer s s1 → ShapeIn s1 (.object f) := fun l => ShapeIn.mono l hf
  unfold unmarshalProperty
  split
  · have h0 : Run E K False P (only T) (ensurePatProps f.patternProperties) s (fun i s' => i < s'.ppmaps.length) := by
      unfold ensurePatProps
      cases hp : f.patternProperties with
      | some i => exact Run.ret hw hx (hf.2 i hp)
      | none => exact (Run.newPatProps hw hx (by simp)).post fun _ _ _ _ h => h.1
    refine Run.bind h0 fun i s1 hw1 hx1 g1 hi => ?_
    refine Run.bind (makeDeclared_run hv hw1 hx1) fun d s2 hw2 hx2 g2 hd => ?_
    cases d with
    | property p => exact Run.ret hw2 hx2 (hmono (g1.trans g2).longer)
    | pattern k p =>
      refine Run.bind (Run.setPatProp hw2 hx2 hd) fun _ s3 hw3 hx3 g3 _ => Run.ret hw3 hx3 ?_
      exact ⟨(hmono ((g1.trans g2).trans g3).longer).1, ifSome_some (Nat.lt_of_lt_of_le hi (g2.trans g3).ppmaps)⟩
  · have h0 : Run E K False P (only T) (ensureProps f.properties) s (fun i s' => i < s'.pmaps.length) := by
      unfold ensureProps
      cases hp : f.properties with
      | some i => exact Run.ret hw hx (hf.1 i hp)
      | none => exact (Run.newProps hw hx (by simp)).post fun _ _ _ _ h => h.1
    refine Run.bind h0 fun i s1 hw1 hx1 g1 hi => ?_
    refine Run.bind (makeDeclared_run hv hw1 hx1) fun d s2 hw2 hx2 g2 hd => ?_
    cases d with
    | pattern k p => exact Run.ret hw2 hx2 (hmono (g1.trans g2).longer)
    | property p =>
      refine Run.bind (Run.setProp hw2 hx2 hd) fun _ s3 hw3 hx3 g3 _ => Run.ret hw3 hx3 ?_
      exact ⟨ifSome_some (Nat.lt_of_lt_of_le hi (g2.trans g3).pmaps), (hmono ((g1.trans g2).trans g3).longer).2⟩

theorem unmarshalProperties_run : ∀ (l : List YNode) {f : ObjectF} {s : St}, (∀ u ∈ l, Sub E K T c loc u) → ShapeIn s (.object f) → W E P s → K.X s →
    Run E K False P (only T) (unmarshalProperties E c loc l f) s (fun f' s' => ShapeIn s' (.object f'))
  | [], f, s, _, hf, hw, hx => Run.ret hw hx hf
  | [_], f, s, _, hf, hw, hx => Run.ret hw hx hf
  | k :: v :: rest, f, s, hl, hf, hw, hx => by
    unfold unmarshalProperties
    refine Run.bind (unmarshalProperty_run (hl v (by simp)) hf hw hx) fun f' s' hw' hx' _ hf' => ?_
    exact unmarshalProperties_run rest (fun u hu => hl u (by simp [hu])) hf' hw' hx'

theorem Run.liftDecoded {α β : Type} {o : Option α} {e : String} {g : α → β} {Q : β → St → Prop} (hw : W E P s) (hx : K.X s) (hq : ∀ x, Q (g x) s) :
    Run E K False P π (M.lift ((orErr e o).bind fun n => .ok (g n))) s Q := by
  refine Run.lift hw hx (noDiv_bind noDiv_orErr fun _ => noDiv_ok) fun x h => ?_
  cases o with
  | none => cases h
  | some n => cases h; exact hq n

theorem objectFacet_run {f : ObjectF} {k : String} {v : YNode} {m : M St ObjectF} (hv : Sub E K T c loc v) (hf : ShapeIn s (.object f)) (hw : W E P s) (hx : K.X s)
    (hm : objectFacet E c loc f k v = some m) : Run E K False P (only T) m s (fun f' s' => ShapeIn s' (.object f')) := by
  unfold objectFacet at hm
  by_cases h1 : k = "additionalProperties"
  · rw [if_pos h1] at hm; cases hm; exact Run.liftDecoded hw hx fun _ => hf
  rw [if_neg h1] at hm
  by_cases h1 : k = "discriminator"
  · rw [if_pos h1] at hm; cases hm; exact Run.liftDecoded hw hx fun _ => hf
  rw [if_neg h1] at hm
  by_cases h1 : k = "discriminatorValue"
  · rw [if_pos h1] at hm; cases hm; exact Run.liftDecoded hw hx fun _ => hf
  rw [if_neg h1] at hm
  by_cases h1 : k = "minProperties"
  · rw [if_pos h1] at hm; cases hm; exact Run.liftDecoded hw hx fun _ => hf
  rw [if_neg h1] at hm
  by_cases h1 : k = "maxProperties"
  · rw [if_pos h1] at hm; cases hm; exact Run.liftDecoded hw hx fun _ => hf
  rw [if_neg h1] at hm
  by_cases h1 : k = "properties"
  · rw [if_pos h1] at hm; cases hm
    split
    · exact Run.err hw hx
    · exact unmarshalProperties_run v.content (fun u hu => hv.content hu) hf hw hx
  rw [if_neg h1] at hm; cases hm

/-- Scalar facets: an outcome that keeps the kind. -/
theorem liftShape_run {α : Type} {o : Out α} {g : α → Shape} {k : String} (ho : o ≠ .diverge) (hg : ∀ x, ShapeIn s (g x) ∧ Kind (g x) = k) (hw : W E P s) (hx : K.X s) :
    Run E K False P π (M.lift (o.bind fun f => .ok (g f))) s (fun sh' s' => ShapeIn s' sh' ∧ Kind sh' = k) := by
  refine Run.lift hw hx (noDiv_bind ho fun _ => noDiv_ok) fun x h => ?_
  cases o with
  | ok y => cases h; exact hg y
  | err e => cases h
  | panic e => cases h
  | diverge => cases h

theorem noDiv_integerFacet {f : IntegerF} {k : String} {v : YNode} {o : Out IntegerF} (h : integerFacet E loc f k v = some o) : o ≠ .diverge := by
  unfold integerFacet at h
  repeat' split at h
  all_goals first
    | cases h; done
    | (cases h; first
        | exact noDiv_err
        | exact noDiv_bind noDiv_orErr fun _ => noDiv_ok
        | exact noDiv_bind noDiv_enum fun _ => noDiv_ok
        | exact noDiv_ite noDiv_err (noDiv_bind noDiv_orErr fun _ => noDiv_ok))

theorem noDiv_numberFacet {f : NumberF} {k : String} {v : YNode} {o : Out NumberF} (h : numberFacet E loc f k v = some o) : o ≠ .diverge := by
  unfold numberFacet at h
  repeat' split at h
  all_goals first
    | cases h; done
    | (cases h; first
        | exact noDiv_err
        | exact noDiv_bind noDiv_orErr fun _ => noDiv_ok
        | exact noDiv_bind noDiv_enum fun _ => noDiv_ok
        | exact noDiv_ite noDiv_err (noDiv_bind noDiv_orErr fun _ => noDiv_ok))

theorem noDiv_stringFacet {f : StringF} {k : String} {v : YNode} {o : Out StringF} (h : stringFacet E loc f k v = some o) : o ≠ .diverge := by
  unfold stringFacet at h
  repeat' split at h
  all_goals first
    | cases h; done
    | (cases h; first
        | exact noDiv_err
        | exact noDiv_ok
        | exact noDiv_bind noDiv_orErr fun _ => noDiv_ok
        | exact noDiv_bind noDiv_enum fun _ => noDiv_ok
        | exact noDiv_ite noDiv_err (noDiv_ite noDiv_ok noDiv_err))

theorem noDiv_fileFacet {f : FileF} {k : String} {v : YNode} {o : Out FileF} (h : fileFacet E loc f k v = some o) : o ≠ .diverge := by
  unfold fileFacet at h
  repeat' split at h
  all_goals first
    | cases h; done
    | (cases h; first
        | exact noDiv_bind noDiv_orErr fun _ => noDiv_ok
        | exact noDiv_bind noDiv_fileTypes fun _ => noDiv_ok)

theorem shapeFacet_run {sh : Shape} {k : String} {v : YNode} {m : M St Shape} (hv : Sub E K T c loc v) (hf : ShapeIn s sh) (hw : W E P s) (hx : K.X s)
    (hm : shapeFacet E c loc sh k v = some m) : Run E K False P (only T) m s (fun sh' s' => ShapeIn s' sh' ∧ Kind sh' = Kind sh) := by
  cases sh with
  | integer f =>
    obtain ⟨o, ho, rfl⟩ := Option.map_eq_some_iff.1 hm
    exact liftShape_run (noDiv_integerFacet ho) (fun _ => ⟨trivial, rfl⟩) hw hx
  | number f =>
    obtain ⟨o, ho, rfl⟩ := Option.map_eq_some_iff.1 hm
    exact liftShape_run (noDiv_numberFacet ho) (fun _ => ⟨trivial, rfl⟩) hw hx
  | string f =>
    obtain ⟨o, ho, rfl⟩ := Option.map_eq_some_iff.1 hm
    exact liftShape_run (noDiv_stringFacet ho) (fun _ => ⟨trivial, rfl⟩) hw hx
  | file f =>
    obtain ⟨o, ho, rfl⟩ := Option.map_eq_some_iff.1 hm
    exact liftShape_run (noDiv_fileFacet ho) (fun _ => ⟨trivial, rfl⟩) hw hx
  | boolean e =>
    unfold shapeFacet at hm
    simp only at hm
    split at hm
    · cases hm
      exact liftShape_run noDiv_enum (fun _ => ⟨trivial, rfl⟩) hw hx
    · cases hm
  | datetime e =>
    unfold shapeFacet at hm
    simp only at hm
    split at hm
    · cases hm
      split
      · exact Run.lift hw hx noDiv_err fun _ h => by cases h
      · exact liftShape_run noDiv_orErr (fun _ => ⟨trivial, rfl⟩) hw hx
    · cases hm
  | array f =>
    obtain ⟨o, ho, rfl⟩ := Option.map_eq_some_iff.1 hm
    exact Run.bind (arrayFacet_run hv hf hw hx ho) fun f' s' hw' hx' _ hq => Run.ret hw' hx' ⟨hq, rfl⟩
  | object f =>
    obtain ⟨o, ho, rfl⟩ := Option.map_eq_some_iff.1 hm
    exact Run.bind (objectFacet_run hv hf hw hx ho) fun f' s' hw' hx' _ hq => Run.ret hw' hx' ⟨hq, rfl⟩
  | _ => cases hm

end

end GoRaml.Load
