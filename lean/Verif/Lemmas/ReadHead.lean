import Verif.Lemmas.ReadMake

/-!
# Decoding fidelity: examples, annotations and the heading of a type
-/

namespace GoRaml.Read

open GoRaml GoRaml.Spec GoRaml.Load

section
variable {E : Env} {c : Calls} {x rg rg' : Region} {s0 s s' : St} {a : Addr} {b : Base} {loc : String}

/-! ## Calls that make no types -/

theorem Call.refl (h : Tied E s) : Call E s s := ⟨h, .refl s, .refl s⟩

theorem Call.trans {s1 s2 : St} (h0 : Tied E s) (h : Call E s s1) (h' : Call E s1 s2) : Call E s s2 :=
  have hi := (Inv.start (x := .none) h0).call h |>.call h'
  ⟨hi.tied, hi.chg, hi.new.mono id hi.le⟩

/-- Only extensions, named examples and fragments of that kind have been added. -/
theorem Call.quiet (h : Tied E s) (ht : Tied E s') (hc : Chg .none s s') (hl : s'.libs = s.libs) (hd : s'.dts = s.dts) : Call E s s' :=
  ⟨ht, hc, (New.refl (E := E) (ρ := False) (rg := .none) s).later (hc.later (Nat.le_of_eq h.len.symm) Region.apart_none) hl hd |>.mono id
    (Region.none_le.or Region.none_le)⟩

theorem Call.exts (h : Tied E s) (l : List DomainExt) : Call E s { s with domainExts := s.domainExts ++ l } :=
  .quiet h (h.same rfl rfl rfl (List.prefix_refl _) rfl)
    (chg_other rfl rfl rfl rfl (List.prefix_refl _) (List.prefix_refl _) (List.prefix_refl _) (List.prefix_refl _) (List.prefix_append _ _) fun _ _ h => h) rfl rfl

/-- Only extensions have been added. -/
def Exts (s s' : St) : Prop := ∃ l, s' = { s with domainExts := s.domainExts ++ l }

theorem Exts.refl (s : St) : Exts s s := ⟨[], by simp⟩

theorem Exts.trans {s1 s2 s3 : St} (h : Exts s1 s2) (h' : Exts s2 s3) : Exts s1 s3 := by
  obtain ⟨l, rfl⟩ := h
  obtain ⟨l', rfl⟩ := h'
  exact ⟨l ++ l', by simp⟩

theorem Exts.call (h : Exts s s') (ht : Tied E s) : Call E s s' := by
  obtain ⟨l, rfl⟩ := h
  exact .exts ht l

theorem Exts.bases (h : Exts s s') : s'.bases = s.bases := by
  obtain ⟨l, rfl⟩ := h; rfl

theorem extension_reads {k v : YNode} {r : String × Nat} (hk : annotationKey k.value = true)
    (hr : unmarshalCustomDomainExtension E loc k v s = (.ok r, s')) : Exts s s' ∧ AnnotationReads E s' loc (k.value, v) r := by
  unfold unmarshalCustomDomainExtension at hr
  obtain ⟨n, s1, r1, r2⟩ := M.bind_ok.1 hr
  obtain ⟨r3, rfl⟩ := M.lift_ok.1 r1
  obtain ⟨d, s2, r4, r5⟩ := M.bind_ok.1 r2
  obtain ⟨r6, rfl⟩ := M.lift_ok.1 r4
  cases r5
  refine ⟨⟨_, rfl⟩, ?_, { name := n, value := d, location := loc }, by simp, rfl, rfl, r6⟩
  have hk' : isCustomDomainExtensionNode k.value = true := by
    simp only [annotationKey, decide_eq_true_eq] at hk
    simp [isCustomDomainExtensionNode, hk.1, hk.2]
  rcases Props.c43_annotation_key k.value hk' with ⟨n', h1, _, h2⟩ | ⟨_, h2⟩
  · rw [r3] at h2; cases h2; exact h1
  · rw [r3] at h2; cases h2

theorem annotationKey_eq (k : String) : annotationKey k = isCustomDomainExtensionNode k := by
  rw [Bool.eq_iff_iff]; simp [annotationKey, isCustomDomainExtensionNode]

/-! ## Examples -/

/-- What the entries say about `strict`. -/
def strictOf (E : Env) (d : Bool) (es : List (String × YNode)) : Bool :=
  ((es.filterMap fun e => if e.1 = "strict" then (E.decodeBool e.2).join else none).getLast?).getD d

theorem strictOf_skip {k : String} {v : YNode} {d : Bool} {es : List (String × YNode)} (hk : k ≠ "strict") : strictOf E d ((k, v) :: es) = strictOf E d es := by
  simp [strictOf, hk]

theorem strictOf_some {v : YNode} {d b : Bool} {es : List (String × YNode)} (hd : E.decodeBool v = some (some b)) :
    strictOf E d (("strict", v) :: es) = strictOf E b es := by
  simp only [strictOf, List.filterMap_cons, if_true, hd, Option.join_some, List.getLast?_cons]
  simp [Option.getD_some]

theorem strictOf_none {v : YNode} {d : Bool} {es : List (String × YNode)} (hd : E.decodeBool v = some none) :
    strictOf E d (("strict", v) :: es) = strictOf E d es := by
  simp [strictOf, hd]

theorem exampleEntries_reads : ∀ (l : List YNode) {s s' : St} {ex ex' : Example}, exampleEntries E loc l ex s = (.ok ex', s') →
    Exts s s' ∧ ex'.strict = strictOf E ex.strict (entriesOf l)
  | [], s, s', ex, ex', hr => by
    obtain ⟨rfl, rfl⟩ := M.ret_ok.1 hr
    exact ⟨.refl _, rfl⟩
  | [_], s, s', ex, ex', hr => by cases hr
  | k :: v :: rest, s, s', ex, ex', hr => by
    obtain ⟨ex1, s1, r1, r2⟩ := M.bind_ok.1 hr
    have key : Exts s s1 ∧ ∀ es, strictOf E ex1.strict es = strictOf E ex.strict ((k.value, v) :: es) := by
      unfold exampleDecode at r1
      split at r1
      · rename_i hk
        obtain ⟨b, s2, r3, r4⟩ := M.bind_ok.1 r1
        obtain ⟨r5, rfl⟩ := M.lift_ok.1 r3
        obtain ⟨rfl, rfl⟩ := M.ret_ok.1 r4
        refine ⟨.refl _, fun es => ?_⟩
        rw [hk]
        have hd : E.decodeBool v = some b := by
          cases hd : E.decodeBool v with
          | none => rw [hd] at r5; cases r5
          | some x => rw [hd] at r5; cases r5; rfl
        cases b with
        | none => rw [strictOf_none hd]
        | some b => rw [strictOf_some hd]
      · rename_i hk
        have hsk : ∀ es, strictOf E ex.strict ((k.value, v) :: es) = strictOf E ex.strict es := fun es => strictOf_skip hk
        split at r1
        · obtain ⟨b, s2, r3, r4⟩ := M.bind_ok.1 r1
          obtain ⟨r5, rfl⟩ := M.lift_ok.1 r3
          obtain ⟨rfl, rfl⟩ := M.ret_ok.1 r4
          exact ⟨.refl _, fun es => (hsk es).symm⟩
        split at r1
        · obtain ⟨b, s2, r3, r4⟩ := M.bind_ok.1 r1
          obtain ⟨r5, rfl⟩ := M.lift_ok.1 r3
          obtain ⟨rfl, rfl⟩ := M.ret_ok.1 r4
          exact ⟨.refl _, fun es => (hsk es).symm⟩
        split at r1
        · rename_i ha
          obtain ⟨b, s2, r3, r4⟩ := M.bind_ok.1 r1
          obtain ⟨rfl, rfl⟩ := M.ret_ok.1 r4
          obtain ⟨k1, _⟩ := extension_reads (by rw [annotationKey_eq]; exact ha) r3
          exact ⟨k1, fun es => (hsk es).symm⟩
        · obtain ⟨rfl, rfl⟩ := M.ret_ok.1 r1
          exact ⟨.refl _, fun es => (hsk es).symm⟩
    obtain ⟨k1, k3⟩ := exampleEntries_reads rest r2
    exact ⟨key.1.trans k1, k3.trans (key.2 _)⟩

theorem findValueKey_reads : ∀ (l : List YNode) {r : Option YNode}, findValueKey l = .ok r →
    ((entriesOf l).find? (·.1 = "value")).map (·.2) = r
  | [], r, h => by cases h; rfl
  | [_], r, h => by cases h
  | k :: v :: rest, r, h => by
    unfold findValueKey at h
    simp only [entriesOf, List.find?_cons]
    split at h
    · rename_i hk; cases h; simp [hk]
    · rename_i hk; simp only [hk, decide_false]; exact findValueKey_reads rest h

theorem makeExample_reads {v : YNode} {ex : Example} (hr : makeExample E v loc s = (.ok ex, s')) :
    Exts s s' ∧ ExampleReads E loc v ex := by
  unfold makeExample at hr
  unfold ExampleReads
  split at hr
  · rename_i hm
    rw [if_pos hm]
    obtain ⟨vk, s1, r1, r2⟩ := M.bind_ok.1 hr
    obtain ⟨r3, rfl⟩ := M.lift_ok.1 r1
    have hf := findValueKey_reads v.content r3
    cases vk with
    | none =>
      obtain ⟨d, s2, r4, r5⟩ := M.bind_ok.1 r2
      obtain ⟨r6, rfl⟩ := M.lift_ok.1 r4
      obtain ⟨rfl, rfl⟩ := M.ret_ok.1 r5
      rw [Option.map_eq_none_iff.1 hf]
      exact ⟨.refl _, r6, rfl⟩
    | some n =>
      obtain ⟨ex1, s2, r4, r5⟩ := M.bind_ok.1 r2
      obtain ⟨k1, k3⟩ := exampleEntries_reads v.content r4
      obtain ⟨d, s3, r6, r7⟩ := M.bind_ok.1 r5
      obtain ⟨r8, rfl⟩ := M.lift_ok.1 r6
      obtain ⟨rfl, rfl⟩ := M.ret_ok.1 r7
      obtain ⟨e, h1, rfl⟩ := Option.map_eq_some_iff.1 hf
      rw [h1]
      exact ⟨k1, r8, k3⟩
  · rename_i hm
    rw [if_neg hm]
    obtain ⟨d, s2, r4, r5⟩ := M.bind_ok.1 hr
    obtain ⟨r6, rfl⟩ := M.lift_ok.1 r4
    obtain ⟨rfl, rfl⟩ := M.ret_ok.1 r5
    exact ⟨.refl _, r6, rfl⟩

/-- The list of the examples. -/
theorem namedExamples_list : ∀ (l : List YNode) {s s' : St} {m m' : OMap Example}, namedExamples E loc l m s = (.ok m', s') →
    Exts s s' ∧ ∃ t, List.Forall₂ (fun e x => x.1 = e.1 ∧ ExampleReads E loc e.2 x.2) (entriesOf l) t ∧ m' = fill m t
  | [], s, s', m, m', hr => by
    obtain ⟨rfl, rfl⟩ := M.ret_ok.1 hr
    exact ⟨.refl _, [], .nil, rfl⟩
  | [_], s, s', m, m', hr => by cases hr
  | k :: v :: rest, s, s', m, m', hr => by
    obtain ⟨ex, s1, r1, r2⟩ := M.bind_ok.1 hr
    obtain ⟨h1, h3⟩ := makeExample_reads r1
    obtain ⟨k1, t, k3, rfl⟩ := namedExamples_list rest r2
    exact ⟨h1.trans k1, (k.value, ex) :: t, .cons ⟨rfl, h3⟩ k3, rfl⟩

theorem namedExamples_reads {l : List YNode} {m : OMap Example} (hr : namedExamples E loc l [] s = (.ok m, s')) :
    Exts s s' ∧ ExamplesOf E loc l m := by
  obtain ⟨h1, t, h3, rfl⟩ := namedExamples_list l hr
  exact ⟨h1, t, h3, rfl⟩

theorem decodeFragment_ok {α : Type} {text : String} {f : YNode → M St α} {y : α} (hr : decodeFragment E text f s = (.ok y, s')) :
    ∃ d, E.yamlParse text = some d ∧ (docRoot d).kind = .mapping ∧ f (docRoot d) s = (.ok y, s') := by
  unfold decodeFragment at hr
  cases hd : E.yamlParse text with
  | none => rw [hd] at hr; cases hr
  | some d =>
    rw [hd] at hr
    simp only at hr
    split at hr
    · cases hr
    split at hr
    · cases hr
    · rename_i hm; exact ⟨d, rfl, not_not.1 hm, hr⟩

theorem getFragment_put {p q : String} {f : FragRef} : getFragment { s with fragments := OMap.set s.fragments p f } q = if q = p then some f else getFragment s q := by
  unfold getFragment; rw [OMap.get_set]

theorem registerNE {path : String} {m : OMap Example} (h : Tied E s) (hn : getFragment s path = none) (hfile : FileExamples E path m) :
    Call E s { s with nes := s.nes ++ [m], fragments := OMap.set s.fragments path (.namedExample s.nes.length) } := by
  have hc : Chg .none s { s with nes := s.nes ++ [m], fragments := OMap.set s.fragments path (.namedExample s.nes.length) } := by
    refine chg_other rfl rfl rfl rfl (List.prefix_refl _) (List.prefix_refl _) (List.prefix_refl _) (List.prefix_append _ _) (List.prefix_refl _) fun p f hp => ?_
    refine (getFragment_put (s := s)).trans ?_
    rw [if_neg, hp]
    rintro rfl
    rw [hn] at hp; cases hp
  refine .quiet h ⟨h.len, h.own, h.clear, fun p i hp => ?_, fun p i hp => ?_⟩ hc rfl rfl
  · replace hp := (getFragment_put (s := s)).symm.trans hp
    split at hp
    · cases hp
    · exact h.dts p i hp
  · replace hp := (getFragment_put (s := s)).symm.trans hp
    split at hp
    · rename_i e; cases hp; subst e; exact ⟨m, by simp, hfile⟩
    · obtain ⟨m', h3, h4⟩ := h.nes p i hp
      exact ⟨m', prefix_get (List.prefix_append _ _) h3, h4⟩

theorem decodeNamedExample_reads {text path : String} {i : Nat} (h : Tied E s) (hf : E.file path = some text) (hn : getFragment s path = none)
    (hr : decodeNamedExample E text path s = (.ok i, s')) : Call E s s' ∧ s'.bases = s.bases ∧ ∃ m, s'.nes[i]? = some m ∧ FileExamples E path m := by
  unfold decodeNamedExample at hr
  obtain ⟨m, s1, r1, r2⟩ := M.bind_ok.1 hr
  obtain ⟨d, h1, -, h2⟩ := decodeFragment_ok r1
  obtain ⟨he, k3⟩ := namedExamples_reads h2
  have k1 := he.call h
  have hn1 : getFragment s1 path = none := by obtain ⟨l, rfl⟩ := he; exact hn
  obtain ⟨j, s2, r3, r4⟩ := M.bind_ok.1 r2
  unfold Heap.newNE at r3
  cases r3
  obtain ⟨u, s3, r5, r6⟩ := M.bind_ok.1 r4
  obtain ⟨rfl, rfl⟩ := M.ret_ok.1 r6
  have hfile : FileExamples E path m := ⟨d, ⟨text, hf, h1⟩, k3⟩
  unfold putFragment at r5
  have hn2 : OMap.get s1.fragments path = none := hn1
  simp only [hn2] at r5
  cases r5
  exact ⟨k1.trans h (registerNE k1.tied hn1 hfile), he.bases, m, by simp, hfile⟩

theorem parseNamedExample_reads {path : String} {i : Nat} (h : Tied E s) (hr : parseNamedExample E path s = (.ok i, s')) :
    Call E s s' ∧ s'.bases = s.bases ∧ ∃ m, s'.nes[i]? = some m ∧ FileExamples E path m := by
  unfold parseNamedExample at hr
  cases hg : getFragment s path with
  | some f =>
    rw [hg] at hr
    cases f with
    | namedExample j =>
      cases hr
      exact ⟨.refl h, rfl, h.nes path _ hg⟩
    | library j => cases hr
    | dataType j => cases hr
  | none =>
    rw [hg] at hr
    simp only at hr
    cases hf : E.file path with
    | none => rw [hf] at hr; cases hr
    | some text =>
      rw [hf] at hr
      simp only at hr
      obtain ⟨u, s1, r1, r2⟩ := M.bind_ok.1 hr
      obtain ⟨_, rfl⟩ := M.lift_ok.1 r1
      exact decodeNamedExample_reads h hf hg r2

end

end GoRaml.Read
