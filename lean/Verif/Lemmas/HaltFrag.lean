import Verif.Lemmas.HaltDecode

/-!
# Parsing ends: decoding a file
-/

namespace GoRaml.Halt

open GoRaml GoRaml.Spec GoRaml.Load

section
variable {E : Env} {Pl : Plan E} {d : Prop} {U k k' : Nat} {c : Calls} {path : String} {ex : Addr → Prop} {s : St} {a : Addr} {α β : Type} {m : M St α} {Q : α → St → Prop}

/-- The rest may do more if a file has been registered before. -/
theorem Run.bind_drop {f : α → M St β} {R : β → St → Prop} (h : Run Pl d ex k m s Q)
    (hf : ∀ x s', Adds Pl ex k s s' → Q x s' → Run Pl d ex k (f x) s' R ∨ (Pl.left s' < Pl.left s ∧ Run Pl d ex k' (f x) s' R)) : Run Pl d ex k (M.bind m f) s R := by
  cases hm : m s with
  | mk o t =>
    unfold Run at h
    rw [hm] at h
    cases o with
    | ok x =>
      rcases hf x t h.1 h.2 with h2 | ⟨hd, h2⟩
      · refine Run.of_eq (m' := M.bind (fun _ => (.ok x, t)) f) (by simp [M.bind, hm]) ?_
        exact Run.bind (m := fun _ => (.ok x, t)) (Q := fun y s' => y = x ∧ s' = t) ⟨h.1, rfl, rfl⟩ fun y s' _ ⟨e1, e2⟩ => by subst e1 e2; exact h2
      · exact Run.jump (s' := t) (m' := f x) (by simp [M.bind, hm]) h.1 hd h2
    | err e => unfold Run; simp only [M.bind, hm]; exact h
    | panic e => unfold Run; simp only [M.bind, hm]; exact h
    | diverge => unfold Run; simp only [M.bind, hm]; exact h

theorem Run.attempt (h : Run Pl d ex k m s Q) : Run Pl d ex k (M.attempt m) s (fun _ _ => True) := by
  unfold Run at h ⊢
  unfold M.attempt
  cases hm : m s with
  | mk o t =>
    rw [hm] at h
    cases o with
    | ok x => exact ⟨h.1, trivial⟩
    | err e => exact ⟨h, trivial⟩
    | panic e => exact h
    | diverge => exact h

/-! ## Libraries -/

theorem typeEntries_run {put : String → String → Addr → M St Unit} (hput : ∀ n l a, Quiet (put n l a)) :
    ∀ (l : List YNode) {m : OMap Addr} {s : St}, (∀ u ∈ l, Below Pl d U k c path u) → Pl.left s ≤ U → Run Pl d nothing k (typeEntries c put path l m) s (fun _ _ => True)
  | [], m, s, _, _ => Run.ret trivial
  | [_], m, s, _, _ => Run.panic
  | key :: v :: rest, m, s, hl, hU => by
    unfold typeEntries
    refine Run.bind ((hl v (by simp)).shape s key.value hU) fun a' s1 g1 _ => ?_
    exact Run.bind (hput _ _ _).run fun _ s2 g2 _ => typeEntries_run hput rest (fun u hu => hl u (by simp [hu])) ((g1.trans g2).left.trans hU)

theorem sectionOf_run {v : YNode} {old : α} {read : List YNode → M St α} (h : Run Pl d ex k (read v.content) s (fun _ _ => True)) :
    Run Pl d ex k (sectionOf v old read) s (fun _ _ => True) := by
  unfold sectionOf
  split
  · exact Run.ret trivial
  split
  · exact Run.err
  · exact h

theorem libraryEntry_run {key v : YNode} {l : Lib} (hl : l.location = path) (hv : Below Pl d U k c path v) (hU : Pl.left s ≤ U) :
    Run Pl d nothing k (libraryEntry E c key v l) s (fun l' _ => l'.location = path) := by
  subst hl
  unfold libraryEntry
  split
  · exact Run.bind (sectionOf_run (Run.lift (noDiv_usesEntries _ _) fun _ _ => trivial)) fun _ _ _ _ => Run.ret rfl
  split
  · exact Run.bind (sectionOf_run (typeEntries_run (fun _ _ _ => quiet_putType) _ (fun u hu => hv.content hu) hU)) fun _ _ _ _ => Run.ret rfl
  split
  · exact Run.bind (sectionOf_run (typeEntries_run (fun _ _ _ => quiet_putAnnotationType) _ (fun u hu => hv.content hu) hU)) fun _ _ _ _ => Run.ret rfl
  split
  · exact Run.bindLift noDiv_orErr fun _ _ => Run.ret rfl
  split
  · exact Run.bind quiet_unmarshalExt.run fun _ _ _ _ => Run.ret rfl
  · exact Run.ret rfl

theorem libraryEntries_run : ∀ (l : List YNode) {lib : Lib} {s : St}, lib.location = path → (∀ u ∈ l, Below Pl d U k c path u) → Pl.left s ≤ U →
    Run Pl d nothing k (libraryEntries E c l lib) s (fun _ _ => True)
  | [], lib, s, _, _, _ => Run.ret trivial
  | [_], lib, s, _, _, _ => Run.panic
  | key :: v :: rest, lib, s, hp, hl, hU => by
    unfold libraryEntries
    exact Run.bind (libraryEntry_run hp (hl v (by simp)) hU) fun lib' s1 g1 h1 => libraryEntries_run rest h1 (fun u hu => hl u (by simp [hu])) (g1.left.trans hU)

theorem linkUses_run {i : Nat} : ∀ (L : List (String × String × Option Nat)) {s : St}, (∀ q, LibOK Pl d U k c q) → Pl.left s ≤ U →
    Run Pl d nothing k (linkUses E c i path L) s (fun _ _ => True)
  | [], s, _, _ => Run.ret trivial
  | (key, value, o) :: rest, s, hL, hU => by
    unfold linkUses
    refine Run.bind (hL _ s hU).attempt fun x s1 g1 _ => ?_
    cases x with
    | ok j => exact Run.bind quiet_linkLib.run fun _ s2 g2 _ => linkUses_run rest hL ((g1.trans g2).left.trans hU)
    | error e => exact Run.bind quiet_linkLib.run fun _ s2 g2 _ => Run.bind (linkUses_run rest hL ((g1.trans g2).left.trans hU)) fun _ _ _ _ => Run.ret trivial

/-- Whatever libraries are linked, either it is as light as the rest or a file has been registered before. -/
def LinkOK (Pl : Plan E) (d : Prop) (U k k' : Nat) (c : Calls) (s : St) (path : String) : Prop :=
  ∀ s', (∀ p f, getFragment s p = some f → getFragment s' p = some f) → (∃ f, getFragment s' path = some f) → Pl.left s' ≤ U →
    (∀ q, LibOK Pl d U k c q) ∨ (Pl.left s' < Pl.left s ∧ ∀ q, LibOK Pl d (Pl.left s') k' c q)

theorem decodeLibrary_run {text : String} (hc : ∀ y, E.yamlParse text = some y → ∀ u ∈ (docRoot y).content, Below Pl d U k c path u) (hU : Pl.left s ≤ U)
    (hL : LinkOK Pl d U k k' c s path) : Run Pl d nothing k (decodeLibrary E c text path) s (fun _ _ => True) := by
  have he : decodeLibrary E c text path = M.bind (M.bind (decodeFragment E text fun n => libraryEntries E c n.content { location := path }) fun l =>
      M.bind (Heap.newLib l) fun i => M.bind (putFragment path (.library i)) fun _ => M.ret (l, i)) fun r =>
      M.bind (linkUses E c r.2 path r.1.uses) fun good => if good then M.ret r.2 else M.err "parse uses library" := by
    simp only [M.bind_assoc, M.ret_bind]; rfl
  rw [he]
  refine Run.bind_drop (k' := k') (Q := fun _ s' => ∃ f, getFragment s' path = some f) ?_ fun _ s' g hf => ?_
  · refine Run.bind (decodeFragment_run fun y hy => libraryEntries_run _ rfl (hc y hy) hU) fun l s1 g1 _ => ?_
    refine Run.bind quiet_newLib.run fun i s2 g2 _ => ?_
    exact Run.bind Run.putFragment fun _ s3 _ h3 => Run.ret h3.2
  · rcases hL s' g.frag hf (g.left.trans hU) with h | ⟨h1, h⟩
    · refine .inl (Run.bind (linkUses_run _ h (g.left.trans hU)) fun good _ _ _ => ?_)
      split
      · exact Run.ret trivial
      · exact Run.err
    · refine .inr ⟨h1, Run.bind (linkUses_run _ h (Nat.le_refl _)) fun good _ _ _ => ?_⟩
      split
      · exact Run.ret trivial
      · exact Run.err

/-! ## Data types -/

theorem dataTypeEntries_nodes : ∀ (l : List YNode) {m : OMap (String × Option Nat)} {fs : List YNode} {r : OMap (String × Option Nat) × List YNode},
    dataTypeEntries l m fs = .ok r → Pl.nodes path r.2 ≤ Pl.nodes path fs + Pl.nodes path l
  | [], m, fs, r, h => by cases h; simp
  | [_], m, fs, r, h => by cases h
  | key :: v :: rest, m, fs, r, h => by
    have hw : Pl.nodes path (key :: v :: rest) = Pl.nodes path [key, v] + Pl.nodes path rest := nodes_append (l := [key, v])
    unfold dataTypeEntries at h
    split at h
    · have := dataTypeEntries_nodes rest h; omega
    split at h
    · split at h
      · have := dataTypeEntries_nodes rest h; omega
      · cases hu : usesEntries v.content [] with
        | ok m' => rw [hu] at h; have := dataTypeEntries_nodes rest h; omega
        | err e => rw [hu] at h; cases h
        | panic e => rw [hu] at h; cases h
        | diverge => rw [hu] at h; cases h
    · have := dataTypeEntries_nodes rest h
      rw [nodes_append] at this
      omega

theorem unmarshalDataType_run {n : YNode} (hc : ∀ l, Pl.nodes path l ≤ Pl.nodes path n.content → ShapeOK Pl d U k c (.mk .mapping "" "" l) path) (hU : Pl.left s ≤ U) :
    Run Pl d nothing k (unmarshalDataType E c path n) s (fun _ _ => True) := by
  unfold unmarshalDataType
  refine Run.bindLift (noDiv_dataTypeEntries _ _ _) fun r hr => ?_
  have h := dataTypeEntries_nodes (Pl := Pl) (path := path) _ hr
  have h0 : Pl.nodes path [] = 0 := rfl
  exact Run.bind (hc r.2 (by omega) s _ hU) fun _ _ _ _ => Run.ret trivial

theorem linkDataTypeUses_run {i : Nat} : ∀ (L : List (String × String × Option Nat)) {s : St}, (∀ q, LibOK Pl d U k c q) → Pl.left s ≤ U →
    Run Pl d nothing k (linkDataTypeUses E c i path L) s (fun _ _ => True)
  | [], s, _, _ => Run.ret trivial
  | (key, value, o) :: rest, s, hL, hU => by
    unfold linkDataTypeUses
    refine Run.bind (hL _ s hU) fun x s1 g1 _ => ?_
    exact Run.bind quiet_linkDT.run fun _ s2 g2 _ => linkDataTypeUses_run rest hL ((g1.trans g2).left.trans hU)

theorem decodeDataType_run {text : String}
    (hc : ∀ n, n = jsonDataTypeNode text ∨ (∃ y, E.yamlParse text = some y ∧ n = docRoot y) → ∀ l, Pl.nodes path l ≤ Pl.nodes path n.content →
      ShapeOK Pl d U k c (.mk .mapping "" "" l) path) (hU : Pl.left s ≤ U)
    (hL : LinkOK Pl d U k k' c s path) : Run Pl d nothing k (decodeDataType E c text path) s (fun _ _ => True) := by
  unfold decodeDataType
  split
  · refine Run.bind (unmarshalDataType_run (hc _ (.inl rfl)) hU) fun dt s1 g1 _ => ?_
    refine Run.bind quiet_newDT.run fun i s2 g2 _ => ?_
    exact Run.bind Run.putFragment fun _ s3 _ h3 => Run.ret trivial
  · have he : (M.bind (decodeFragment E text (unmarshalDataType E c path)) fun d =>
        M.bind (Heap.newDT d) fun i => M.bind (putFragment path (.dataType i)) fun _ => M.bind (linkDataTypeUses E c i path d.uses) fun _ => M.ret i) =
        M.bind (M.bind (decodeFragment E text (unmarshalDataType E c path)) fun d => M.bind (Heap.newDT d) fun i => M.bind (putFragment path (.dataType i)) fun _ => M.ret (d, i)) fun r =>
          M.bind (linkDataTypeUses E c r.2 path r.1.uses) fun _ => M.ret r.2 := by
      simp only [M.bind_assoc, M.ret_bind]
    rw [he]
    refine Run.bind_drop (k' := k') (Q := fun _ s' => ∃ f, getFragment s' path = some f) ?_ fun _ s' g hf => ?_
    · refine Run.bind (decodeFragment_run fun y hy => unmarshalDataType_run (hc _ (.inr ⟨y, hy, rfl⟩)) hU) fun l s1 g1 _ => ?_
      refine Run.bind quiet_newDT.run fun i s2 g2 _ => ?_
      exact Run.bind Run.putFragment fun _ s3 _ h3 => Run.ret h3.2
    · rcases hL s' g.frag hf (g.left.trans hU) with h | ⟨h1, h⟩
      · exact .inl (Run.bind (linkDataTypeUses_run _ h (g.left.trans hU)) fun _ _ _ _ => Run.ret trivial)
      · exact .inr ⟨h1, Run.bind (linkDataTypeUses_run _ h (Nat.le_refl _)) fun _ _ _ _ => Run.ret trivial⟩

end

/-! ## The nested calls -/

section
variable {inc : String → Nat}

theorem nodeW_mem {u : YNode} : ∀ {l : List YNode}, u ∈ l → nodeW inc u ≤ listW inc l
  | n :: l, h => by
    unfold listW
    rcases List.mem_cons.1 h with rfl | h
    · omega
    · have := nodeW_mem h; omega

theorem nodeW_content {u v : YNode} (hu : u ∈ v.content) : nodeW inc u + 3 ≤ nodeW inc v := by
  cases v with
  | mk kd tag val content =>
    have := nodeW_mem (inc := inc) (show u ∈ content from hu)
    conv_rhs => unfold nodeW
    omega

theorem nodeW_within {t u : YNode} (h : Within t u) : nodeW inc t ≤ nodeW inc u := by
  induction h with
  | refl => exact Nat.le_refl _
  | step hu _ ih => exact ih.trans (Nat.le_trans (Nat.le_add_right _ 3) (nodeW_content hu))

theorem nodeW_inc {v : YNode} (h : v.tag = "!include") : inc v.value + 3 ≤ nodeW inc v := by
  cases v with
  | mk kd tag val content =>
    have h : tag = "!include" := h
    unfold nodeW
    rw [if_pos h]
    show inc val + 3 ≤ _
    omega

end

section
variable {E : Env} (Pl : Plan E)

/-- The nested calls, cut off at depth `n`, run out of fuel only if the files that are left and the weight require more. -/
structure CallsOK (n : Nat) : Prop where
  shape : ∀ v loc s name, Run Pl (n < Pl.left s * Pl.top + Pl.node loc v) nothing (Pl.node loc v) ((calls E n).makeShape v name loc) s (fun _ _ => True)
  type : ∀ p s, Run Pl (n < Pl.left s * Pl.top + Pl.own p) nothing (Pl.own p) ((calls E n).parseDataType p) s (fun _ _ => True)
  lib : ∀ p s, Run Pl (n < Pl.left s * Pl.top + Pl.own p) nothing (Pl.own p) ((calls E n).parseLibrary p) s (fun _ _ => True)

variable {Pl} {n U k : Nat} {d : Prop} {loc : String}

theorem CallsOK.shapeOK (h : CallsOK Pl n) {v : YNode} (hk : Pl.node loc v ≤ k) (hd : n < U * Pl.top + Pl.node loc v → d) : ShapeOK Pl d U k (calls E n) v loc := by
  intro s name hU
  refine (h.shape v loc s name).mono (fun hn => hd ?_) (fun _ _ _ h => h) hk fun _ _ _ h => h
  have := Nat.mul_le_mul_right Pl.top hU
  omega

theorem CallsOK.typeOK (h : CallsOK Pl n) {p : String} (hk : Pl.own p ≤ k) (hd : n < U * Pl.top + Pl.own p → d) : TypeOK Pl d U k (calls E n) p := by
  intro s hU
  refine (h.type p s).mono (fun hn => hd ?_) (fun _ _ _ h => h) hk fun _ _ _ h => h
  have := Nat.mul_le_mul_right Pl.top hU
  omega

theorem CallsOK.libOK (h : CallsOK Pl n) {p : String} (hk : Pl.own p ≤ k) (hd : n < U * Pl.top + Pl.own p → d) : LibOK Pl d U k (calls E n) p := by
  intro s hU
  refine (h.lib p s).mono (fun hn => hd ?_) (fun _ _ _ h => h) hk fun _ _ _ h => h
  have := Nat.mul_le_mul_right Pl.top hU
  omega

theorem CallsOK.below (h : CallsOK Pl n) {u : YNode} (hk : Pl.node loc u ≤ k) (hd : n < U * Pl.top + Pl.node loc u → d) : Below Pl d U k (calls E n) loc u := by
  intro t ht
  have h1 : Pl.node loc t ≤ Pl.node loc u := nodeW_within ht
  refine ⟨h.shapeOK (by omega) fun hn => hd (by omega), fun hi => ?_⟩
  have h2 : Pl.own (E.joinDir loc t.value) + 3 ≤ Pl.node loc t := nodeW_inc (inc := fun v => Pl.own (E.joinDir loc v)) hi
  exact h.typeOK (by omega) fun hn => hd (by omega)

/-- Linking after a file has been registered. -/
theorem CallsOK.link (h : CallsOK Pl n) {s : St} {p : String} (hp : E.file p ≠ none) (hg : getFragment s p = none) (hd : n < Pl.left s * Pl.top → d) :
    LinkOK Pl d U k Pl.top (calls E n) s p := by
  intro s' hm hf _
  obtain ⟨f, hf⟩ := hf
  have hlt : Pl.left s' < Pl.left s := left_lt hp hm hg hf
  refine .inr ⟨hlt, fun q => ?_⟩
  have hq := Pl.ownLt q
  refine h.libOK (by omega) fun hn => hd ?_
  have := Nat.mul_le_mul_right Pl.top (show Pl.left s' + 1 ≤ Pl.left s from hlt)
  rw [Nat.add_mul] at this
  omega

theorem callsOK : ∀ n, CallsOK Pl n
  | 0 => by
    refine ⟨fun v loc s name => ?_, fun p s => ?_, fun p s => ?_⟩
    · show 0 < _
      have : 0 < Pl.node loc v := by cases v; simp only [Plan.node, nodeW]; omega
      omega
    · show 0 < _
      have := Pl.json p
      omega
    · show 0 < _
      have := Pl.json p
      omega
  | n + 1 => by
    have ih := callsOK n
    refine ⟨fun v loc s name => ?_, fun p s => ?_, fun p s => ?_⟩
    · refine makeNewShapeYAML_run (U := Pl.left s) ⟨fun u hu => ?_, fun hi => ?_⟩ (Nat.le_refl _) (Nat.le_refl _)
      · have : Pl.node loc u + 3 ≤ Pl.node loc v := nodeW_content hu
        exact ih.below (by omega) fun hn => by omega
      · have : Pl.own (E.joinDir loc v.value) + 3 ≤ Pl.node loc v := nodeW_inc (inc := fun v => Pl.own (E.joinDir loc v)) hi
        exact ih.typeOK (by omega) fun hn => by omega
    · show Run Pl _ nothing _ (parseDataType E (calls E n) p) s _
      cases hg : getFragment s p with
      | some fr =>
        cases fr with
        | dataType i => exact Run.of_eq (m' := M.ret i) (by simp [parseDataType, hg, M.ret]) (Run.ret trivial)
        | library i => exact Run.of_eq (m' := M.panic "interface conversion") (by simp [parseDataType, hg, M.panic]) Run.panic
        | namedExample i => exact Run.of_eq (m' := M.panic "interface conversion") (by simp [parseDataType, hg, M.panic]) Run.panic
      | none =>
        cases hf : E.file p with
        | none => exact Run.of_eq (m' := M.err "open fragment file") (by simp [parseDataType, hg, hf, M.err]) Run.err
        | some text =>
          refine Run.of_eq (m' := M.bind (M.lift (checkFragmentKind p text .dataType)) fun _ => decodeDataType E (calls E n) text p) (by simp [parseDataType, hg, hf]) ?_
          refine Run.bindLift noDiv_checkKind fun _ _ => ?_
          have hj := Pl.json p
          refine decodeDataType_run (U := Pl.left s) (k' := Pl.top) (fun m hm l hl => ?_) (Nat.le_refl _) (ih.link (by rw [hf]; simp) hg fun hn => by omega)
          have hw : Pl.node p (.mk .mapping "" "" l) = 3 + Pl.nodes p l := by simp [Plan.node, Plan.nodes, nodeW]
          have hm4 : Pl.nodes p m.content + 4 ≤ Pl.own p := by
            rcases hm with rfl | ⟨y, hy, rfl⟩
            · simp only [jsonDataTypeNode, YNode.content, YNode.str, Plan.nodes, listW, nodeW]
              simp
              omega
            · have := Pl.root p text y hf hy
              cases hr : docRoot y with
              | mk kd tag val content =>
                rw [hr] at this
                simp only [nodeW] at this
                simp only [Plan.nodes, YNode.content]
                omega
          exact ih.shapeOK (by omega) fun hn => by omega
    · show Run Pl _ nothing _ (parseLibrary E (calls E n) p) s _
      cases hg : getFragment s p with
      | some fr =>
        cases fr with
        | library i => exact Run.of_eq (m' := M.ret i) (by simp [parseLibrary, hg, M.ret]) (Run.ret trivial)
        | dataType i => exact Run.of_eq (m' := M.panic "interface conversion") (by simp [parseLibrary, hg, M.panic]) Run.panic
        | namedExample i => exact Run.of_eq (m' := M.panic "interface conversion") (by simp [parseLibrary, hg, M.panic]) Run.panic
      | none =>
        cases hf : E.file p with
        | none => exact Run.of_eq (m' := M.err "open fragment file") (by simp [parseLibrary, hg, hf, M.err]) Run.err
        | some text =>
          refine Run.of_eq (m' := M.bind (M.lift (checkFragmentKind p text .library)) fun _ => decodeLibrary E (calls E n) text p) (by simp [parseLibrary, hg, hf]) ?_
          refine Run.bindLift noDiv_checkKind fun _ _ => ?_
          have hj := Pl.json p
          refine decodeLibrary_run (U := Pl.left s) (k' := Pl.top) (fun y hy u hu => ?_) (Nat.le_refl _) (ih.link (by rw [hf]; simp) hg fun hn => by omega)
          have h1 := Pl.root p text y hf hy
          have h2 : Pl.node p u + 3 ≤ Pl.node p (docRoot y) := nodeW_content hu
          have h3 : Pl.node p (docRoot y) = nodeW (fun v => Pl.own (E.joinDir p v)) (docRoot y) := rfl
          exact ih.below (by omega) fun hn => by omega

/-- Decoding the entry. -/
theorem decodeEntry_run (Pl : Plan E) {text path : String} {s : St} : ∃ K, ∀ n, Run Pl (n < Pl.left s * Pl.top + K) nothing K (decodeEntry E n text path) s (fun _ _ => True) := by
  refine ⟨Pl.top + 9 + (match E.yamlParse text with | some y => Pl.node path (docRoot y) | none => 0), fun n => ?_⟩
  have ih := callsOK (Pl := Pl) n
  generalize hK : Pl.top + 9 + (match E.yamlParse text with | some y => Pl.node path (docRoot y) | none => 0) = K
  have hL : LinkOK Pl (n < Pl.left s * Pl.top + K) (Pl.left s) K K (calls E n) s path := fun s' _ _ _ => .inl fun q => by
    have := Pl.ownLt q
    exact ih.libOK (by omega) fun _ => by omega
  unfold decodeEntry
  refine Run.bindLift noDiv_readHead fun head _ => Run.bindLift noDiv_kind fun kind _ => ?_
  cases kind with
  | library =>
    refine Run.bind (decodeLibrary_run (U := Pl.left s) (k' := K) (fun y hy u hu => ?_) (Nat.le_refl _) hL) fun _ _ _ _ => Run.ret trivial
    have h2 : Pl.node path u + 3 ≤ Pl.node path (docRoot y) := nodeW_content hu
    simp only [hy] at hK
    exact ih.below (by omega) fun _ => by omega
  | dataType =>
    refine Run.bind (decodeDataType_run (U := Pl.left s) (k' := K) (fun m hm l hl => ?_) (Nat.le_refl _) hL) fun _ _ _ _ => Run.ret trivial
    have hw : Pl.node path (.mk .mapping "" "" l) = 3 + Pl.nodes path l := by simp [Plan.node, Plan.nodes, nodeW]
    have hl2 : Pl.nodes path l + 3 ≤ K := by
      rcases hm with rfl | ⟨y, hy, rfl⟩
      · simp only [jsonDataTypeNode, YNode.content, YNode.str, Plan.nodes, listW, nodeW] at hl
        simp at hl
        simp only [Plan.nodes]
        omega
      · cases hr : docRoot y with
        | mk kd tag val content =>
          have h3 : Pl.nodes path content + 3 ≤ Pl.node path (docRoot y) := by
            rw [hr]
            simp only [Plan.node, Plan.nodes, nodeW]
            omega
          rw [hr] at hl
          have hl : Pl.nodes path l ≤ Pl.nodes path content := hl
          simp only [hy] at hK
          omega
    exact ih.shapeOK (by omega) fun _ => by omega
  | namedExample => exact Run.bind decodeNamedExample_run fun _ _ _ _ => Run.ret trivial

/-- Decoding the entry keeps the types fair. -/
theorem decodeEntry_fair (Pl : Plan E) {n : Nat} {text path : String} {s t : St} {f : FragRef} (hs : AllFair s) (h : decodeEntry E n text path s = (.ok f, t)) : AllFair t := by
  obtain ⟨K, hr⟩ := decodeEntry_run Pl (text := text) (path := path) (s := s)
  have := hr n
  unfold Run at this
  rw [h] at this
  exact this.1.fair hs

end

/-! ## There are weights -/

section

mutual

theorem nodeW_congr {f g : String → Nat} : ∀ v : YNode, (∀ t, Within t v → t.tag = "!include" → f t.value = g t.value) → nodeW f v = nodeW g v
  | .mk kd tag val content, h => by
    unfold nodeW
    have h1 : listW f content = listW g content := listW_congr content fun u hu t ht => h t (.step hu ht)
    rw [h1]
    by_cases ht : tag = "!include"
    · rw [if_pos ht, if_pos ht, show f val = g val from h _ (.refl _) ht]
    · rw [if_neg ht, if_neg ht]

theorem listW_congr {f g : String → Nat} : ∀ l : List YNode, (∀ u ∈ l, ∀ t, Within t u → t.tag = "!include" → f t.value = g t.value) → listW f l = listW g l
  | [], _ => rfl
  | n :: l, h => by
    unfold listW
    rw [nodeW_congr n (h n (by simp)), listW_congr l fun u hu => h u (by simp [hu])]

end

open Classical in
/-- The weight of a file: that of its document, which includes the weights of the files it includes. -/
noncomputable def ownOf {E : Env} (hwf : WellFounded fun q p => Includes E p q) : String → Nat :=
  hwf.fix fun p rec => 13 + match (E.file p).bind E.yamlParse with
    | none => 0
    | some y => nodeW (fun v => if h : Includes E p (E.joinDir p v) then rec (E.joinDir p v) h else 0) (docRoot y)

theorem ownOf_eq {E : Env} (hwf : WellFounded fun q p => Includes E p q) (p : String) : ownOf hwf p = 13 + match (E.file p).bind E.yamlParse with
    | none => 0
    | some y => nodeW (fun v => ownOf hwf (E.joinDir p v)) (docRoot y) := by
  unfold ownOf
  rw [WellFounded.fix_eq]
  cases hy : (E.file p).bind E.yamlParse with
  | none => rfl
  | some y =>
    simp only
    obtain ⟨text, h1, h2⟩ := Option.bind_eq_some_iff.1 hy
    rw [nodeW_congr]
    intro t ht hi
    rw [dif_pos ⟨y, t, ⟨text, h1, h2⟩, within_trans ht (within_root y), hi, rfl⟩]

theorem plan_exists {E : Env} (hf : FinitelyManyFiles E) (h : NoIncludeCycle E) : Nonempty (Plan E) := by
  have hwf := includes_wf hf h
  obtain ⟨files, hfiles⟩ := hf
  refine ⟨{ files, own := ownOf hwf, top := 14 + (files.map (ownOf hwf)).sum, inFiles := hfiles, ownLt := fun p => ?_, json := fun p => ?_, root := fun p text y h1 h2 => ?_ }⟩
  · by_cases hp : E.file p = none
    · rw [ownOf_eq, hp]; simp
    · have := List.single_le_sum (l := files.map (ownOf hwf)) (fun _ _ => Nat.zero_le _) _ (List.mem_map.2 ⟨p, hfiles p hp, rfl⟩)
      omega
  · rw [ownOf_eq]; omega
  · rw [ownOf_eq hwf p, h1]
    simp only [Option.bind_some, h2]
    omega

end

end GoRaml.Halt
