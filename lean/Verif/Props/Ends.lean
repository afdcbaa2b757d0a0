import Verif.Lemmas.HaltEnds
import Verif.Props.Refs

/-!
# Parsing ends (C76)
-/

namespace GoRaml.Props

open GoRaml GoRaml.Spec

/-- C76: parsing a text ends, if there are finitely many files, no file includes itself, directly or through others, and no type that has to be resolved on the way needs
itself, directly or through others.  It ends whatever the types are otherwise, and whether or not they can be resolved; the text may use libraries that use each other. -/
theorem c76_parsing_ends (E : Env) (text path : String) (hfin : FinitelyManyFiles E) (hinc : NoIncludeCycle E)
    (href : ∀ a s, TakenUp E text path a s → ¬ Relation.TransGen (Needs s) a a) :
    ∃ N, ∀ n m, N ≤ n → N ≤ m → (parseFragment E n m text path {}).1 ≠ .diverge :=
  (Halt.plan_exists hfin hinc).elim fun Pl => Halt.parse_ends href Pl

/-- C76, read the other way: if parsing a text does not end, a file includes itself, or on the way a type has to be resolved that needs itself. -/
theorem c76_endless_parsing (E : Env) (text path : String) (hfin : FinitelyManyFiles E) (h : ∀ n m, (parseFragment E n m text path {}).1 = .diverge) :
    (∃ p, Relation.TransGen (Includes E) p p) ∨ ∃ a s, TakenUp E text path a s ∧ Relation.TransGen (Needs s) a a := by
  rw [or_iff_not_imp_left]
  intro hinc
  by_contra hn
  obtain ⟨N, hN⟩ := c76_parsing_ends E text path hfin (fun p hp => hinc ⟨p, hp⟩) fun a s h1 h2 => hn ⟨a, s, h1, h2⟩
  exact hN N N (Nat.le_refl _) (Nat.le_refl _) (h N N)

/-- C76 for a path: parsing the file ends, if there is one. -/
theorem c76_parsing_path_ends (E : Env) (path : String) (hfin : FinitelyManyFiles E) (hinc : NoIncludeCycle E)
    (href : ∀ text, E.file path = some text → ∀ a s, TakenUp E text path a s → ¬ Relation.TransGen (Needs s) a a) :
    ∃ N, ∀ n m, N ≤ n → N ≤ m → (parseFromPath E n m path {}).1 ≠ .diverge := by
  unfold parseFromPath
  cases hf : E.file path with
  | none => exact ⟨0, fun _ _ _ _ => by simp [M.err]⟩
  | some text => exact c76_parsing_ends E text path hfin hinc (href text hf)

/-- C76: once the bounds are large enough for the parse to end, they make no difference: the result and the state are those of every parse with larger bounds. -/
theorem c76_result_unique (E : Env) (text path : String) (n m n' m' : Nat) (hn : n ≤ n') (hm : m ≤ m') (h : (parseFragment E n m text path {}).1 ≠ .diverge) :
    parseFragment E n' m' text path {} = parseFragment E n m text path {} :=
  Files.parseFragment_sim (mode := false) (E := E) (f := E.file) (fun _ => Files.Le.rfl) hn hm text path {} h

/-! ## Example -/

/-- `C` refers to `B`, which refers to `A`. -/
def exChain : List (String × String × YNode) := [
  ("c.raml", "#%RAML 1.0 Library\nc", exDoc [("types", exMap [("C", .str "B"), ("B", .str "(A)"), ("A", .str "string")])])]

/-- After decoding. -/
def exChain0 : St := exDecoded exChain "c.raml"

/-- After the resolution of `C`, and with it of `B`. -/
def exChain1 : St := (resolveShape (exFilesEnv exChain) 20 0 exChain0).2

/-- Before the resolution of `B`. -/
def exChain2 : St := { exChain1 with unresolved := exChain1.unresolved.tail }

theorem exRun {E : Env} {n : Nat} {a : Addr} {s : St} (h : exResult (resolveShape E n a s) = some ()) : resolveShape E n a s = (.ok (), (resolveShape E n a s).2) := by
  cases hd : resolveShape E n a s with
  | mk o t =>
    rw [hd] at h
    cases o <;> simp_all [exResult]

/-- How a resolution ends does not depend on the bound. -/
theorem exRun_unique {E : Env} {n n' : Nat} {a : Addr} {s s' : St} (h : resolveShape E n a s = (.ok (), s')) (hd : (resolveShape E n' a s).1 ≠ .diverge) :
    resolveShape E n' a s = (.ok (), s') := by
  have h1 := Halt.resolveShape_mono (E := E) (Nat.le_max_left n n') (x := a) (t := s) (by rw [h]; simp)
  have h2 := Halt.resolveShape_mono (E := E) (Nat.le_max_right n n') (x := a) (t := s) hd
  rw [← h2, h1, h]

/-- Nor does the result of decoding. -/
theorem exDecode_unique {E : Env} {n n' : Nat} {text path : String} {f f' : FragRef} {s s' : St} (h : decodeEntry E n text path {} = (.ok f, s))
    (h' : decodeEntry E n' text path {} = (.ok f', s')) : s = s' := by
  have h1 := Files.decodeEntry_sim (mode := false) (E := E) (f := E.file) (fun _ => Files.Le.rfl) (Nat.le_max_left n n') text path {} (by rw [h]; simp [Files.Fin])
  have h2 := Files.decodeEntry_sim (mode := false) (E := E) (f := E.file) (fun _ => Files.Le.rfl) (Nat.le_max_right n n') text path {} (by rw [h']; simp [Files.Fin])
  rw [h] at h1
  rw [h'] at h2
  have h3 := h1.symm.trans h2
  cases h3
  rfl

/-- Decoding with a larger bound. -/
theorem exDecode_mono {E : Env} {n n' : Nat} {text path : String} {f : FragRef} {s : St} (hn : n ≤ n') (h : decodeEntry E n text path {} = (.ok f, s)) :
    decodeEntry E n' text path {} = (.ok f, s) := by
  have h1 := Files.decodeEntry_sim (mode := false) (E := E) (f := E.file) (fun _ => Files.Le.rfl) hn text path {} (by rw [h]; simp [Files.Fin])
  rw [h] at h1
  exact h1

/-- Which call a reference makes: the one for the type it refers to. -/
theorem asksFor_reference {E : Env} {s s1 t : St} {a x ref : Addr} {b rb : Base} {facets : Option (List YNode)} {tree : Rdt} {n : String} {m : Option String}
    (hb : s.base a = some b) (hf : b.shape = some (.unknown facets)) (hl : b.link = none) (hc : b.type ≠ "composite") (hp : parseTypeExpression b.type = some tree)
    (hh : headRef tree = some (n, m)) (hr : getReferenced s Lib.types (refText n m) b.location = .ok ref) (hrb : s.base ref = some rb) (hid : rb.id ≠ b.id)
    {N : Nat} (hrun : resolveShape E N a s = (.ok (), s1)) (h : AsksFor E a s x t) : x = ref ∧ t = s := by
  obtain ⟨k, rec, h1, _, h3⟩ := h
  by_cases he : ref = x ∧ s = t
  · exact ⟨he.1.symm, he.2.symm⟩
  have hsame : resolveStep E (calls E k) rec a s = resolveShape E (k + 1) a s := by
    show _ = resolveStep E (calls E k) (resolveShape E k) a s
    rw [resolveStep_head hb hf hl hc hp hh, resolveStep_head hb hf hl hc hp hh]
    simp only [visitReference, M.bind, M.lift, Heap.getBase, hb, hr, hrb, if_neg hid, h1 ref s he]
  have := exRun_unique hrun (n' := k + 1) (by rw [← hsame, h3]; simp)
  rw [← hsame, h3] at this
  cases this

/-- A type that is resolved makes no call. -/
theorem asksFor_concrete {E : Env} {s t : St} {a x : Addr} {b : Base} {sh : Shape} (hb : s.base a = some b) (hs : b.shape = some sh) (hk : ∀ f, sh ≠ .unknown f) :
    ¬ AsksFor E a s x t := by
  rintro ⟨k, rec, _, _, h3⟩
  have : resolveStep E (calls E k) rec a s = (.ok (), s) := by
    unfold resolveStep
    rw [bind_step (getBase_some hb)]
    simp only [hs]
    cases sh <;> rfl
  rw [this] at h3
  cases h3

/-- The type at the address is resolved; computed. -/
def exMade (s : St) (a : Addr) : Bool :=
  match s.base a with
  | some b => match b.shape with
    | some (.unknown _) => false
    | some _ => true
    | none => false
  | none => false

theorem exMade_asks {E : Env} {s t : St} {a x : Addr} (h : exMade s a = true) : ¬ AsksFor E a s x t := by
  unfold exMade at h
  split at h
  · rename_i b hb
    split at h
    · cases h
    · rename_i sh hk hs
      exact asksFor_concrete hb hs fun f hf => hk f hf
    · cases h
  · cases h

theorem exMade_needs {s : St} {a x : Addr} (h : exMade s a = true) : ¬ Needs s a x := by
  rintro ⟨b, f, hb, hf, _⟩
  simp [exMade, hb, hf] at h

theorem asksFor_refersTo {E : Env} {s s1 t : St} {a x ref : Addr} (hr : exRefersTo s a ref = true) {N : Nat} (hrun : resolveShape E N a s = (.ok (), s1)) (h : AsksFor E a s x t) :
    x = ref ∧ t = s := by
  obtain ⟨b, facets, tree, n, m, bx, hb, hf, hl, hc, hp, hh, hr, hbx, hid⟩ := exRefersTo_iff hr
  exact asksFor_reference hb hf hl hc hp hh hr hbx hid hrun h

theorem exChain_decoded : decodeEntry (exFilesEnv exChain) 20 "#%RAML 1.0 Library\nc" "c.raml" {} = (.ok (.library 0), exChain0) :=
  exDecoded_eq (by decide +kernel) (by decide +kernel)

theorem exChain_run0 : resolveShape (exFilesEnv exChain) 20 0 exChain0 = (.ok (), exChain1) := exRun (by decide +kernel)

theorem exChain_run1 : resolveShape (exFilesEnv exChain) 20 1 exChain0 = (.ok (), (resolveShape (exFilesEnv exChain) 20 1 exChain0).2) := exRun (by decide +kernel)

/-- After it. -/
def exChain3 : St := (resolveShape (exFilesEnv exChain) 20 1 exChain2).2

theorem exChain_run2 : resolveShape (exFilesEnv exChain) 20 1 exChain2 = (.ok (), exChain3) := exRun (by decide +kernel)

theorem exChain0_list : exChain0.unresolved = [0, 1] := by decide +kernel

theorem exChain2_eq : { exChain1 with unresolved := exChain1.unresolved.tail } = exChain2 := rfl

theorem exChain2_list : exChain2.unresolved = [1] := by decide +kernel

theorem exChain3_list : exChain3.unresolved.tail = [] := by decide +kernel

theorem exChain_refers : exRefersTo exChain0 0 1 = true ∧ exRefersTo exChain0 1 2 = true ∧ exMade exChain0 2 = true ∧ exMade exChain2 1 = true := by decide +kernel

theorem exChain_reached : Reached (exFilesEnv exChain) exChain0 := .decoded (by decide +kernel) exChain_decoded

theorem exChain_ranks : ∀ a, a < exChain0.bases.length → ∀ x ∈ exNeeds exChain0 a, a < x := by decide +kernel

theorem exChain_finite : FinitelyManyFiles (exFilesEnv exChain) := exFiles_finite _

theorem exChain_includes : NoIncludeCycle (exFilesEnv exChain) :=
  noIncludeCycle_of_noWayBack (noWayBack_of_rank (fun _ => 0)
    (fun p q h => by simpa using exFiles_includes (fun _ _ => false) (by decide +kernel) p q h)
    (fun p q h => Nat.le_refl _))

theorem exChain_chain : exNeeds exChain0 0 = [1] ∧ exNeeds exChain0 1 = [2] := by decide +kernel

section
attribute [local irreducible] exChain exChain0 exChain1 exChain2 exChain3

/-- The states in which types are taken up. -/
theorem exChain_next {s : St} (h : NextUp (exFilesEnv exChain) "#%RAML 1.0 Library\nc" "c.raml" s) : s = exChain0 ∨ s = exChain2 ∨ s.unresolved = [] := by
  induction h with
  | @decoded n f s h => exact .inl (exDecode_unique exChain_decoded h).symm
  | @resolved n a l s s' _ hu hr ih =>
    rcases ih with h0 | h0 | h0
    · rw [h0] at hu hr
      rw [exChain0_list] at hu
      obtain ⟨rfl, rfl⟩ := List.cons.inj hu
      have h1 := exRun_unique exChain_run0 (n' := n) (by rw [hr]; simp)
      have h2 : s' = exChain1 := congrArg Prod.snd (hr.symm.trans h1)
      rw [h2]
      exact .inr (.inl exChain2_eq)
    · rw [h0] at hu hr
      rw [exChain2_list] at hu
      obtain ⟨rfl, rfl⟩ := List.cons.inj hu
      have h1 := exRun_unique exChain_run2 (n' := n) (by rw [hr]; simp)
      have h2 : s' = exChain3 := congrArg Prod.snd (hr.symm.trans h1)
      rw [h2]
      exact .inr (.inr exChain3_list)
    · rw [h0] at hu; cases hu
  | @failed n a l s s' e _ hu hr ih =>
    have hno : ∀ {t}, (.err e, s') = ((.ok () : Out Unit), t) → False := fun h => (by have := congrArg Prod.fst h; cases this)
    rcases ih with h0 | h0 | h0
    · rw [h0] at hu hr
      rw [exChain0_list] at hu
      obtain ⟨rfl, rfl⟩ := List.cons.inj hu
      exact (hno (hr.symm.trans (exRun_unique exChain_run0 (n' := n) (by rw [hr]; simp)))).elim
    · rw [h0] at hu hr
      rw [exChain2_list] at hu
      obtain ⟨rfl, rfl⟩ := List.cons.inj hu
      exact (hno (hr.symm.trans (exRun_unique exChain_run2 (n' := n) (by rw [hr]; simp)))).elim
    · rw [h0] at hu; cases hu

/-- The types that are taken up. -/
theorem exChain_taken {a : Addr} {s : St} (h : TakenUp (exFilesEnv exChain) "#%RAML 1.0 Library\nc" "c.raml" a s) : s = exChain0 ∧ (a = 0 ∨ a = 1 ∨ a = 2) ∨ s = exChain2 ∧ a = 1 := by
  induction h with
  | @listed a l s hn hu =>
    rcases exChain_next hn with h0 | h0 | h0
    · rw [h0, exChain0_list] at hu
      obtain ⟨rfl, rfl⟩ := List.cons.inj hu
      exact .inl ⟨h0, .inl rfl⟩
    · rw [h0, exChain2_list] at hu
      obtain ⟨rfl, rfl⟩ := List.cons.inj hu
      exact .inr ⟨h0, rfl⟩
    · rw [h0] at hu; cases hu
  | @asked a x s t _ hr ih =>
    rcases ih with ⟨h0, rfl | rfl | rfl⟩ | ⟨h0, rfl⟩ <;> rw [h0] at hr
    · obtain ⟨h1, h2⟩ := asksFor_refersTo exChain_refers.1 exChain_run0 hr
      exact .inl ⟨h2, .inr (.inl h1)⟩
    · obtain ⟨h1, h2⟩ := asksFor_refersTo exChain_refers.2.1 exChain_run1 hr
      exact .inl ⟨h2, .inr (.inr h1)⟩
    · exact absurd hr (exMade_asks exChain_refers.2.2.1)
    · exact absurd hr (exMade_asks exChain_refers.2.2.2)

/-- No type needs itself. -/
theorem exChain_needs (a : Addr) (s : St) (h : TakenUp (exFilesEnv exChain) "#%RAML 1.0 Library\nc" "c.raml" a s) : ¬ Relation.TransGen (Needs s) a a := by
  intro hn
  rcases exChain_taken h with ⟨h0, _⟩ | ⟨h0, rfl⟩ <;> rw [h0] at hn
  · have hlt : ∀ a x, Needs exChain0 a x → a < x := by
      intro a x hx
      have hm := needs_exNeeds hx (Load.isBase_base (Load.needs_isBase (reached_wellFormed exChain_reached) hx))
      have ha : a < exChain0.bases.length := by
        obtain ⟨b, _, hb, _⟩ := hx
        exact Load.base_isBase hb
      exact exChain_ranks a ha x hm
    have hlt' : ∀ x, Relation.TransGen (Needs exChain0) a x → a < x := by
      intro x hx
      induction hx with
      | single h1 => exact hlt _ _ h1
      | tail _ h1 ih => exact Nat.lt_trans ih (hlt _ _ h1)
    exact Nat.lt_irrefl _ (hlt' a hn)
  · obtain ⟨x, hx, _⟩ := Relation.TransGen.head'_iff.1 hn
    exact exMade_needs exChain_refers.2.2.2 hx

/-- The hypotheses of `c76_parsing_ends` are met by a chain of references, in which types need others: `C` needs `B`, and `B` needs `A`. -/
example : (∃ N, ∀ n m, N ≤ n → N ≤ m → (parseFragment (exFilesEnv exChain) n m "#%RAML 1.0 Library\nc" "c.raml" {}).1 ≠ .diverge) ∧
    TakenUp (exFilesEnv exChain) "#%RAML 1.0 Library\nc" "c.raml" 0 exChain0 ∧ exNeeds exChain0 0 = [1] ∧ exNeeds exChain0 1 = [2] :=
  ⟨c76_parsing_ends _ _ _ exChain_finite exChain_includes exChain_needs, .listed (.decoded exChain_decoded) exChain0_list, exChain_chain.1, exChain_chain.2⟩

end

/-- `c76_endless_parsing` says what is wrong with `A: (B)`, `B: {type: A}`: no file includes itself, so a type needs itself. -/
example : ∃ a s, TakenUp (exFilesEnv exLoop) "#%RAML 1.0 Library\nl" "l.raml" a s ∧ Relation.TransGen (Needs s) a a := by
  have hinc : ¬ ∃ p, Relation.TransGen (Includes (exFilesEnv exLoop)) p p := fun ⟨p, hp⟩ =>
    (noIncludeCycle_of_noWayBack (noWayBack_of_rank (fun _ => 0)
      (fun p q h => by simpa using exFiles_includes (files := exLoop) (fun _ _ => false) (by decide +kernel) p q h) (fun p q h => Nat.le_refl _))) p hp
  refine (c76_endless_parsing _ _ _ (exFiles_finite _) fun n m => ?_).resolve_left hinc
  have hdec : decodeEntry (exFilesEnv exLoop) 20 "#%RAML 1.0 Library\nl" "l.raml" {} = (.ok (.library 0), exDecoded exLoop "l.raml") :=
    exDecoded_eq (by decide +kernel) (by decide +kernel)
  have hd : (resolveShape (exFilesEnv exLoop) (max n 20) 0 (exDecoded exLoop "l.raml")).1 = .diverge := by
    refine c34_cycle_diverges _ _ (fun a => a < 3) (fun a ha => ?_) _ 0 (by decide)
    have hall : ∀ a < 3, exRefersTo (exDecoded exLoop "l.raml") a (if a = 0 then 1 else 0) = true := by decide +kernel
    exact ⟨if a = 0 then 1 else 0, by split <;> decide, exRefersTo_iff (hall a ha)⟩
  have hu : (exDecoded exLoop "l.raml").unresolved = [0, 1, 2, 3] := by decide +kernel
  have hbig : (parseFragment (exFilesEnv exLoop) (max n 20) m "#%RAML 1.0 Library\nl" "l.raml" {}).1 = .diverge := by
    unfold parseFragment
    have h1 : decodeEntry (exFilesEnv exLoop) (max n 20) "#%RAML 1.0 Library\nl" "l.raml" {} = (.ok (.library 0), exDecoded exLoop "l.raml") :=
      exDecode_mono (Nat.le_max_right n 20) hdec
    rw [bind_step h1]
    refine bind_diverges ?_
    unfold resolveShapes resolveLoop
    rw [hu]
    cases m with
    | zero => rfl
    | succ m =>
      refine bind_diverges ?_
      unfold M.attempt
      cases h : resolveShape (exFilesEnv exLoop) (max n 20) 0 (exDecoded exLoop "l.raml") with
      | mk o t => rw [h] at hd; simp only at hd; subst hd; rfl
  by_contra hne
  exact hne (by rw [← hbig, c76_result_unique _ _ _ n m (max n 20) m (Nat.le_max_left _ _) (Nat.le_refl _) hne])

end GoRaml.Props
