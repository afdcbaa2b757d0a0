import Verif.Lemmas.LoadShape
import Verif.Lemmas.Required

/-!
# Loading: libraries and data types keep the invariant
-/

namespace GoRaml

theorem M.bind_assoc {σ α β γ : Type} (m : M σ α) (f : α → M σ β) (g : β → M σ γ) : M.bind (M.bind m f) g = M.bind m fun x => M.bind (f x) g := by
  funext s
  unfold M.bind
  cases m s with
  | mk o t => cases o <;> rfl

theorem M.ret_bind {σ α β : Type} (x : α) (f : α → M σ β) : M.bind (M.ret x) f = f x := rfl

end GoRaml

namespace GoRaml.Load

open GoRaml GoRaml.Spec

section
variable {α β : Type} {E : Env} {K K' : Ctl} {r : Prop} {T : String → Prop} {P P' π π' : Perm} {s t : St} {m : M St α} {Q : α → St → Prop}

/-- A computation that goes on as another one, from a later state. -/
theorem Run.jump {m' : M St α} (h : m s = m' t) (g : G r π s t) (hle : Perm.Le s π' π) (hX : ∀ s, K'.X s → K.X s) (hd : K'.div → K.div)
    (k : Run E K' r P π' m' t Q) : Run E K r P π m s Q := by
  unfold Run at k ⊢
  rw [h]
  cases hm : m' t with
  | mk o u =>
    rw [hm] at k
    cases o with
    | ok x => exact ⟨k.1, hX _ k.2.1, g.trans' k.2.2.1 hle, k.2.2.2⟩
    | err e => exact ⟨k.1.top _, hX _ k.2.1, g.top.trans (k.2.2.weaken id (fun _ _ h => h) (fun _ _ h => h) (fun _ _ h => h) hle.f)⟩
    | panic e => trivial
    | diverge => exact hd k

/-- A computation that cannot succeed. -/
theorem Run.of_fail (h : Run E K r (Perm.top π.f) (Perm.top π.f) m s (fun _ _ => False)) : Run E K r P π m s Q := by
  unfold Run at h ⊢
  cases hm : m s with
  | mk o u =>
    rw [hm] at h
    cases o with
    | ok x => exact h.2.2.2.elim
    | err e => exact h
    | panic e => trivial
    | diverge => exact h

theorem Run.attempt_bind {f : Except String α → M St β} {R : β → St → Prop} (h : Run E K r P π' m s Q) (hle : Perm.Le s π' π)
    (hok : ∀ x s', W E P s' → K.X s' → G r π' s s' → Q x s' → Run E K r P' π (f (.ok x)) s' R)
    (herr : ∀ e s', W E (Perm.top π.f) s' → K.X s' → G r (Perm.top π.f) s s' → Run E K r (Perm.top π.f) (Perm.top π.f) (f (.error e)) s' (fun _ _ => False)) :
    Run E K r P' π (M.bind (M.attempt m) f) s R := by
  unfold Run at h
  cases hm : m s with
  | mk o u =>
    rw [hm] at h
    cases o with
    | ok x =>
      refine Run.jump (K' := K) (t := u) (m' := f (.ok x)) ?_ (h.2.2.1.le hle) (Perm.Le.refl _ _) (fun _ h => h) id (hok x u h.1 h.2.1 h.2.2.1 h.2.2.2)
      simp [M.bind, M.attempt, hm]
    | err e =>
      have g : G r (Perm.top π.f) s u := h.2.2.weaken id (fun _ _ h => h) (fun _ _ h => h) (fun _ _ h => h) hle.f
      refine Run.of_fail (Run.jump (K' := K) (t := u) (m' := f (.error e)) ?_ g (Perm.Le.refl _ _) (fun _ h => h) id (herr e u (h.1.top _) h.2.1 g))
      simp [M.bind, M.attempt, hm]
    | panic e =>
      have : M.bind (M.attempt m) f s = (.panic e, u) := by simp [M.bind, M.attempt, hm]
      unfold Run; rw [this]; trivial
    | diverge =>
      have : M.bind (M.attempt m) f s = (.diverge, u) := by simp [M.bind, M.attempt, hm]
      unfold Run; rw [this]; exact h

/-! ## New fragments -/

/-- The state after a library has been made and registered. -/
def regLib (s : St) (path : String) (l : Lib) : St :=
  (putFragment path (.library s.libs.length) { s with libs := s.libs ++ [l] }).2

/-- The state after a data type has been made and registered. -/
def regDT (s : St) (path : String) (d : DT) : St :=
  (putFragment path (.dataType s.dts.length) { s with dts := s.dts ++ [d] }).2

theorem regLib_eq (s : St) (path : String) (l : Lib) : regLib s path l =
    { s with libs := s.libs ++ [l], fragments := if (getFragment s path).isSome then s.fragments else OMap.set s.fragments path (.library s.libs.length) } := by
  unfold regLib putFragment
  cases hn : OMap.get s.fragments path with
  | none => simp [getFragment, hn]
  | some f => simp [getFragment, hn]

theorem regDT_eq (s : St) (path : String) (d : DT) : regDT s path d =
    { s with dts := s.dts ++ [d], fragments := if (getFragment s path).isSome then s.fragments else OMap.set s.fragments path (.dataType s.dts.length) } := by
  unfold regDT putFragment
  cases hn : OMap.get s.fragments path with
  | none => simp [getFragment, hn]
  | some f => simp [getFragment, hn]

theorem getFragment_reg {s : St} {path : String} {f : FragRef} (p : String) :
    OMap.get (if (getFragment s path).isSome then s.fragments else OMap.set s.fragments path f) p =
      if p = path ∧ getFragment s path = none then some f else getFragment s p := by
  cases hn : getFragment s path with
  | none =>
    simp only [Option.isSome_none, Bool.false_eq_true, if_false, and_true, OMap.get_set]
    rfl
  | some g => simp [getFragment]

theorem G.regLib {path : String} {l : Lib} (hT : π.f path) : G r π s (regLib s path l) := by
  rw [regLib_eq]
  exact
    { G.refl r π s with
      libsLen := by simp
      lib := fun i hi _ => List.getElem?_append_left hi
      libLoc := fun i l' hl => ⟨l', by
        have hi := (List.getElem?_eq_some_iff.1 hl).1
        show (s.libs ++ [l])[i]? = some l'
        rw [List.getElem?_append_left hi]; exact hl, rfl⟩
      frag := fun p f hf => by
        show OMap.get _ p = some f
        rw [getFragment_reg]
        split
        · rename_i h; rw [h.1, h.2] at hf; cases hf
        · exact hf
      fresh := fun p f hf => by
        have hf : OMap.get _ p = some f := hf
        rw [getFragment_reg] at hf
        split at hf
        · rename_i h; exact .inr (h.1 ▸ hT)
        · exact .inl hf }

theorem G.regDT {path : String} {d : DT} (hT : π.f path) : G r π s (regDT s path d) := by
  rw [regDT_eq]
  exact
    { G.refl r π s with
      dtsLen := by simp
      dt := fun i hi _ => List.getElem?_append_left hi
      dtLoc := fun i l' hl => ⟨l', by
        have hi := (List.getElem?_eq_some_iff.1 hl).1
        show (s.dts ++ [d])[i]? = some l'
        rw [List.getElem?_append_left hi]; exact hl, rfl⟩
      frag := fun p f hf => by
        show OMap.get _ p = some f
        rw [getFragment_reg]
        split
        · rename_i h; rw [h.1, h.2] at hf; cases hf
        · exact hf
      fresh := fun p f hf => by
        have hf : OMap.get _ p = some f := hf
        rw [getFragment_reg] at hf
        split at hf
        · rename_i h; exact .inr (h.1 ▸ hT)
        · exact .inl hf }

theorem regLib_registered {path : String} {l : Lib} : ∃ f, getFragment (regLib s path l) path = some f := by
  rw [regLib_eq]
  show ∃ f, OMap.get _ path = some f
  rw [getFragment_reg]
  cases hn : getFragment s path with
  | none => exact ⟨.library s.libs.length, by simp⟩
  | some f => exact ⟨f, by simp⟩

theorem regDT_registered {path : String} {d : DT} : ∃ f, getFragment (regDT s path d) path = some f := by
  rw [regDT_eq]
  show ∃ f, OMap.get _ path = some f
  rw [getFragment_reg]
  cases hn : getFragment s path with
  | none => exact ⟨.dataType s.dts.length, by simp⟩
  | some f => exact ⟨f, by simp⟩

theorem putFragment_run {α : Type} (path : String) (f : FragRef) (k : Unit → M St α) (s : St) :
    M.bind (putFragment path f) k s = k () (putFragment path f s).2 := by
  unfold M.bind
  have : (putFragment path f s).1 = .ok () := by
    unfold putFragment; split <;> rfl
  cases h : putFragment path f s with
  | mk o t => rw [h] at this; cases this; rfl

theorem getElem?_snoc {γ : Type} {l : List γ} {x y : γ} {i : Nat} (h : (l ++ [x])[i]? = some y) : (l[i]? = some y ∧ i < l.length) ∨ (i = l.length ∧ y = x) := by
  by_cases hi : i < l.length
  · rw [List.getElem?_append_left hi] at h; exact .inl ⟨h, hi⟩
  · rw [List.getElem?_append_right (Nat.not_lt.1 hi)] at h
    obtain ⟨h1, h2⟩ := List.getElem?_eq_some_iff.1 h
    simp only [List.length_cons, List.length_nil] at h1
    refine .inr ⟨by omega, ?_⟩
    simp only [List.getElem_singleton] at h2
    exact h2.symm

theorem W.regLib {path : String} {l : Lib} (hw : W E P s) (hl : LibIn s l) (hloc : l.location = path) : W E (P.addL s.libs.length) (regLib s path l) := by
  have g : G True (Perm.top fun _ => True) s (Load.regLib s path l) := G.regLib trivial
  have e := regLib_eq s path l
  refine hw.step g (by rw [e]) (fun _ h => h) (by rw [e]; exact fun _ h => .inl h) (by rw [e]; exact fun _ h => .inl h) (by rw [e]; exact fun _ h => .inl h)
    (by rw [e]; exact fun _ h => .inl h) ?_ (by rw [e]; exact fun _ _ h => .inl ⟨h, id⟩) ?_
  · intro i l' hi
    rw [e] at hi
    rcases getElem?_snoc hi with ⟨h, _⟩ | ⟨rfl, rfl⟩
    · exact .inl ⟨h, .inl⟩
    · exact .inr ⟨hl.mono g.longer, fun h => absurd (.inr rfl) h⟩
  · intro x hx
    rw [e] at hx
    simp only at hx
    split at hx
    · exact .inl hx
    · rcases mem_omap_set hx with h | h
      · exact .inl h
      · subst h
        refine .inr ⟨l, ?_, hloc⟩
        rw [e]; simp

theorem W.regDT {path : String} {d : DT} (hw : W E P s) (hl : DTIn s d) (hloc : d.location = path) : W E (P.addD s.dts.length) (regDT s path d) := by
  have g : G True (Perm.top fun _ => True) s (Load.regDT s path d) := G.regDT trivial
  have e := regDT_eq s path d
  refine hw.step g (by rw [e]) (fun _ h => h) (by rw [e]; exact fun _ h => .inl h) (by rw [e]; exact fun _ h => .inl h) (by rw [e]; exact fun _ h => .inl h)
    (by rw [e]; exact fun _ h => .inl h) (by rw [e]; exact fun _ _ h => .inl ⟨h, id⟩) ?_ ?_
  · intro i l' hi
    rw [e] at hi
    rcases getElem?_snoc hi with ⟨h, _⟩ | ⟨rfl, rfl⟩
    · exact .inl ⟨h, .inl⟩
    · exact .inr ⟨hl.mono g.longer, fun h => absurd (.inr rfl) h⟩
  · intro x hx
    rw [e] at hx
    simp only at hx
    split at hx
    · exact .inl hx
    · rcases mem_omap_set hx with h | h
      · exact .inl h
      · subst h
        refine .inr ⟨d, ?_, hloc⟩
        rw [e]; simp

/-! ## Linking -/

/-- One entry of `uses` is linked. -/
def EntryLinked (E : Env) (s : St) (loc v : String) (link : Option Nat) : Prop :=
  ∃ j l, link = some j ∧ s.libs[j]? = some l ∧ l.location = E.joinDir loc v ∧ ∃ f, getFragment s (E.joinDir loc v) = some f

theorem EntryLinked.mono {loc v : String} {link : Option Nat} (g : G r π s t) (h : EntryLinked E s loc v link) : EntryLinked E t loc v link := by
  obtain ⟨j, l, hj, hl, hloc, f, hf⟩ := h
  obtain ⟨l', hl', hloc'⟩ := g.libLoc j l hl
  exact ⟨j, l', hj, hl', hloc'.trans hloc, f, g.frag _ _ hf⟩

theorem G.linkLib {i : Nat} {key value : String} {link : Option Nat} (hi : π.l i) :
    G r π s { s with libs := s.libs.modify i fun l => { l with uses := OMap.set l.uses key (value, link) } } :=
  { G.refl r π s with
    libsLen := by simp
    lib := fun j _ hp => by
      show (s.libs.modify i _)[j]? = _
      rw [List.getElem?_modify]
      have : ¬ i = j := fun e => hp (e ▸ hi)
      simp [this]
    libLoc := fun j l hl => by
      refine ⟨if i = j then { l with uses := OMap.set l.uses key (value, link) } else l, ?_, ?_⟩
      · show (s.libs.modify i _)[j]? = _
        rw [List.getElem?_modify, hl]; rfl
      · split <;> rfl }

theorem G.linkDT {i : Nat} {key value : String} {link : Option Nat} (hi : π.d i) :
    G r π s { s with dts := s.dts.modify i fun l => { l with uses := OMap.set l.uses key (value, link) } } :=
  { G.refl r π s with
    dtsLen := by simp
    dt := fun j _ hp => by
      show (s.dts.modify i _)[j]? = _
      rw [List.getElem?_modify]
      have : ¬ i = j := fun e => hp (e ▸ hi)
      simp [this]
    dtLoc := fun j l hl => by
      refine ⟨if i = j then { l with uses := OMap.set l.uses key (value, link) } else l, ?_, ?_⟩
      · show (s.dts.modify i _)[j]? = _
        rw [List.getElem?_modify, hl]; rfl
      · split <;> rfl }

theorem Run.linkLib {i : Nat} {key value : String} {link : Option Nat} (hw : W E P s) (hx : K.X s) (hi : π.l i) (hP : P.l i) (hl : IfSome (· < s.libs.length) link) :
    Run E K r P π (Heap.linkLib i key value link) s (fun _ s' => s' = { s with libs := s.libs.modify i fun l => { l with uses := OMap.set l.uses key (value, link) } }) := by
  have g : G r π s { s with libs := s.libs.modify i fun l => { l with uses := OMap.set l.uses key (value, link) } } := G.linkLib hi
  refine Run.step_of rfl (hw.step g rfl (fun _ h => h) (fun _ h => .inl h) (fun _ h => .inl h) (fun _ h => .inl h) (fun _ h => .inl h) ?_
    (fun _ _ h => .inl ⟨h, id⟩) (fun _ h => .inl h)) hx g (by simp) rfl rfl
  intro j l hj
  rw [List.getElem?_modify] at hj
  obtain ⟨l0, h0, e0⟩ := Option.map_eq_some_iff.1 (show Option.map _ _ = _ from hj)
  by_cases hij : i = j
  · simp only [hij, if_true] at e0
    subst e0
    have h1 := hw.lib j l0 h0
    refine .inr ⟨⟨fun e he => g.isBase (h1.types e he), fun e he => g.isBase (h1.annotationTypes e he), fun e he => ?_⟩, fun h => absurd (hij ▸ hP) h⟩
    rcases mem_omap_set he with h | h
    · exact IfSome.imp (h1.uses e h) fun _ hx => Nat.lt_of_lt_of_le hx g.libsLen
    · subst h; exact IfSome.imp hl fun _ hx => Nat.lt_of_lt_of_le hx g.libsLen
  · simp only [hij, if_false] at e0
    subst e0
    exact .inl ⟨h0, id⟩

theorem Run.linkDT {i : Nat} {key value : String} {link : Option Nat} (hw : W E P s) (hx : K.X s) (hi : π.d i) (hP : P.d i) (hl : IfSome (· < s.libs.length) link) :
    Run E K r P π (Heap.linkDT i key value link) s (fun _ s' => s' = { s with dts := s.dts.modify i fun l => { l with uses := OMap.set l.uses key (value, link) } }) := by
  have g : G r π s { s with dts := s.dts.modify i fun l => { l with uses := OMap.set l.uses key (value, link) } } := G.linkDT hi
  refine Run.step_of rfl (hw.step g rfl (fun _ h => h) (fun _ h => .inl h) (fun _ h => .inl h) (fun _ h => .inl h) (fun _ h => .inl h)
    (fun _ _ h => .inl ⟨h, id⟩) ?_ (fun _ h => .inl h)) hx g rfl (by simp) rfl
  intro j l hj
  rw [List.getElem?_modify] at hj
  obtain ⟨l0, h0, e0⟩ := Option.map_eq_some_iff.1 (show Option.map _ _ = _ from hj)
  by_cases hij : i = j
  · simp only [hij, if_true] at e0
    subst e0
    have h1 := hw.dt j l0 h0
    refine .inr ⟨⟨h1.shape, fun e he => ?_⟩, fun h => absurd (hij ▸ hP) h⟩
    rcases mem_omap_set he with h | h
    · exact h1.uses e h
    · subst h; exact hl
  · simp only [hij, if_false] at e0
    subst e0
    exact .inl ⟨h0, id⟩

end

section
variable {E : Env} {K K' : Ctl} {T T' : String → Prop} {c : Calls} {P : Perm} {s : St} {path : String}

theorem Run.attempt {α : Type} {m : M St α} {r : Prop} {π : Perm} {Q : α → St → Prop} (h : Run E K r P π m s Q) :
    Run E K r (Perm.top π.f) (Perm.top π.f) (M.attempt m) s (fun x s' => ∀ y, x = .ok y → Q y s') := by
  unfold Run at h ⊢
  cases hm : m s with
  | mk o u =>
    rw [hm] at h
    cases o with
    | ok x =>
      have : M.attempt m s = (.ok (.ok x), u) := by simp [M.attempt, hm]
      rw [this]; exact ⟨h.1.top _, h.2.1, h.2.2.1.top, fun y hy => by cases hy; exact h.2.2.2⟩
    | err e =>
      have : M.attempt m s = (.ok (.error e), u) := by simp [M.attempt, hm]
      rw [this]; exact ⟨h.1.top _, h.2.1, h.2.2, fun y hy => by cases hy⟩
    | panic e => simp [M.attempt, hm]
    | diverge =>
      have : M.attempt m s = (.diverge, u) := by simp [M.attempt, hm]
      rw [this]; exact h

/-- Going on after an error: nothing but the common part of the invariant is kept. -/
theorem linkUses_bad {i : Nat} : ∀ (L : List (String × String × Option Nat)) {s : St}, (∀ e ∈ L, LibSpec E K T c (E.joinDir path e.2.1)) → W E (Perm.top T) s → K.X s →
    Run E K False (Perm.top T) (Perm.top T) (linkUses E c i path L) s (fun _ _ => True)
  | [], s, _, hw, hx => Run.ret hw hx trivial
  | (key, value, o) :: rest, s, hL, hw, hx => by
    unfold linkUses
    refine Run.bind (Run.attempt (π := only T) (hL (key, value, o) (by simp) (Perm.top T) s hw hx)) fun x s1 hw1 hx1 _ hq => ?_
    cases x with
    | ok j =>
      obtain ⟨l, hl, _⟩ := hq j rfl
      exact Run.bind (Run.linkLib hw1 hx1 trivial trivial (ifSome_some ((List.getElem?_eq_some_iff.1 hl).1))) fun _ s2 hw2 hx2 _ _ =>
        linkUses_bad rest (fun e he => hL e (by simp [he])) hw2 hx2
    | error e =>
      refine Run.bind (Run.linkLib hw1 hx1 trivial trivial ifSome_none) fun _ s2 hw2 hx2 _ _ => ?_
      exact Run.bind (linkUses_bad rest (fun e he => hL e (by simp [he])) hw2 hx2) fun _ s3 hw3 hx3 _ _ => Run.ret hw3 hx3 trivial

theorem linkUses_run {i : Nat} : ∀ (L : List (String × String × Option Nat)) {s : St} {li : Lib}, (∀ e ∈ L, LibSpec E K T c (E.joinDir path e.2.1)) →
    W E (P.addL i) s → K.X s → s.libs[i]? = some li → li.location = path →
    (∀ k v link, OMap.get li.uses k = some (v, link) → (∃ e ∈ L, e.1 = k) ∨ EntryLinked E s path v link) →
    Run E K False P ((only T).addL i) (M.bind (linkUses E c i path L) fun good => if good then M.ret i else M.err "parse uses library") s
      (fun j s' => j = i ∧ ∃ l, s'.libs[i]? = some l ∧ l.location = path)
  | [], s, li, _, hw, hx, hli, hloc, hlink => by
    show Run E K False P ((only T).addL i) (M.ret i) s _
    refine Run.ret (hw.dropL fun l hl => ?_) hx ⟨rfl, li, hli, hloc⟩
    rw [hli] at hl; cases hl
    rw [hloc]
    intro k v link hk
    rcases hlink k v link hk with ⟨_, h, _⟩ | h
    · cases h
    · exact h
  | (key, value, o) :: rest, s, li, hL, hw, hx, hli, hloc, hlink => by
    unfold linkUses
    rw [M.bind_assoc]
    have hspec := hL (key, value, o) (by simp)
    refine Run.attempt_bind (hspec (P.addL i) s hw hx) (only_le fun _ h => h) ?_ ?_
    · intro j s1 hw1 hx1 g1 ⟨lj, hj, hjl, hjr⟩
      simp only
      rw [M.bind_assoc]
      have hlt : j < s1.libs.length := (List.getElem?_eq_some_iff.1 hj).1
      have hli1 : s1.libs[i]? = some li := by rw [g1.lib i ((List.getElem?_eq_some_iff.1 hli).1) id]; exact hli
      refine Run.bind (Run.linkLib hw1 hx1 (Or.inr rfl) (Or.inr rfl) (ifSome_some hlt)) fun _ s2 hw2 hx2 g2 e2 => ?_
      have hli2 : s2.libs[i]? = some { li with uses := OMap.set li.uses key (value, some j) } := by
        rw [e2]; show (s1.libs.modify i _)[i]? = _
        rw [List.getElem?_modify, hli1]; simp
      refine linkUses_run rest (fun e he => hL e (by simp [he])) hw2 hx2 hli2 hloc fun k v link hk => ?_
      have hk : OMap.get (OMap.set li.uses key (value, some j)) k = some (v, link) := hk
      rw [OMap.get_set] at hk
      by_cases hkey : k = key
      · rw [if_pos hkey] at hk
        cases hk
        refine .inr (EntryLinked.mono g2 ⟨j, lj, rfl, hj, hjl, hjr⟩)
      · rw [if_neg hkey] at hk
        rcases hlink k v link hk with ⟨e, he, hek⟩ | h
        · rcases List.mem_cons.1 he with rfl | he
          · exact absurd hek.symm hkey
          · exact .inl ⟨e, he, hek⟩
        · exact .inr ((h.mono g1).mono g2)
    · intro e s1 hw1 hx1 _
      simp only
      rw [M.bind_assoc]
      refine Run.bind (Run.linkLib hw1 hx1 trivial trivial ifSome_none) fun _ s2 hw2 hx2 _ _ => ?_
      rw [M.bind_assoc]
      exact Run.bind (linkUses_bad rest (fun e he => hL e (by simp [he])) hw2 hx2) fun _ s3 hw3 hx3 _ _ => Run.err hw3 hx3

theorem linkDataTypeUses_run {i : Nat} : ∀ (L : List (String × String × Option Nat)) {s : St} {li : DT}, (∀ e ∈ L, LibSpec E K T c (E.joinDir path e.2.1)) →
    W E (P.addD i) s → K.X s → s.dts[i]? = some li → li.location = path →
    (∀ k v link, OMap.get li.uses k = some (v, link) → (∃ e ∈ L, e.1 = k) ∨ EntryLinked E s path v link) →
    Run E K False P ((only T).addD i) (M.bind (linkDataTypeUses E c i path L) fun _ => M.ret i) s
      (fun j s' => j = i ∧ ∃ l, s'.dts[i]? = some l ∧ l.location = path)
  | [], s, li, _, hw, hx, hli, hloc, hlink => by
    show Run E K False P ((only T).addD i) (M.ret i) s _
    refine Run.ret (hw.dropD fun l hl => ?_) hx ⟨rfl, li, hli, hloc⟩
    rw [hli] at hl; cases hl
    rw [hloc]
    intro k v link hk
    rcases hlink k v link hk with ⟨_, h, _⟩ | h
    · cases h
    · exact h
  | (key, value, o) :: rest, s, li, hL, hw, hx, hli, hloc, hlink => by
    unfold linkDataTypeUses
    rw [M.bind_assoc]
    have hspec := hL (key, value, o) (by simp)
    refine Run.bind' (hspec (P.addD i) s hw hx) (only_le fun _ h => h) (Perm.Le.refl _ _) fun j s1 hw1 hx1 g1 ⟨lj, hj, hjl, hjr⟩ => ?_
    rw [M.bind_assoc]
    have hlt : j < s1.libs.length := (List.getElem?_eq_some_iff.1 hj).1
    have hli1 : s1.dts[i]? = some li := by rw [g1.dt i ((List.getElem?_eq_some_iff.1 hli).1) id]; exact hli
    refine Run.bind (Run.linkDT hw1 hx1 (Or.inr rfl) (Or.inr rfl) (ifSome_some hlt)) fun _ s2 hw2 hx2 g2 e2 => ?_
    have hli2 : s2.dts[i]? = some { li with uses := OMap.set li.uses key (value, some j) } := by
      rw [e2]; show (s1.dts.modify i _)[i]? = _
      rw [List.getElem?_modify, hli1]; simp
    refine linkDataTypeUses_run rest (fun e he => hL e (by simp [he])) hw2 hx2 hli2 hloc fun k v link hk => ?_
    have hk : OMap.get (OMap.set li.uses key (value, some j)) k = some (v, link) := hk
    rw [OMap.get_set] at hk
    by_cases hkey : k = key
    · rw [if_pos hkey] at hk
      cases hk
      exact .inr (EntryLinked.mono g2 ⟨j, lj, rfl, hj, hjl, hjr⟩)
    · rw [if_neg hkey] at hk
      rcases hlink k v link hk with ⟨e, he, hek⟩ | h
      · rcases List.mem_cons.1 he with rfl | he
        · exact absurd hek.symm hkey
        · exact .inl ⟨e, he, hek⟩
      · exact .inr ((h.mono g1).mono g2)

/-! ## Libraries -/

theorem usesEntries_ok : ∀ (l : List YNode) {m m' : OMap (String × Option Nat)}, usesEntries l m = .ok m' →
    ∀ e ∈ m', e ∈ m ∨ (e.2.2 = none ∧ ∃ k v, Entry k v l ∧ v.value = e.2.1)
  | [], m, m', h, e, he => by cases h; exact .inl he
  | [_], m, m', h, e, he => by cases h
  | k :: v :: rest, m, m', h, e, he => by
    rcases usesEntries_ok rest h e he with h1 | ⟨h1, k', v', h2, h3⟩
    · rcases mem_omap_set h1 with h1 | h1
      · exact .inl h1
      · subst h1; exact .inr ⟨rfl, k, v, .here, rfl⟩
    · exact .inr ⟨h1, k', v', .there h2, h3⟩

theorem typeEntries_run {loc : String} {put : String → String → Addr → M St Unit}
    (hput : ∀ {s : St} n l a, W E P s → K.X s → Run E K False P (only T) (put n l a) s (fun _ s' => s'.bases = s.bases)) :
    ∀ (l : List YNode) {m : OMap Addr} {s : St}, (∀ u ∈ l, Sub E K T c loc u) → (∀ e ∈ m, IsBase s e.2) → W E P s → K.X s →
    Run E K False P (only T) (typeEntries c put loc l m) s (fun m' s' => ∀ e ∈ m', IsBase s' e.2)
  | [], m, s, _, hm, hw, hx => Run.ret hw hx hm
  | [_], m, s, _, hm, hw, hx => Run.panic
  | k :: v :: rest, m, s, hl, hm, hw, hx => by
    unfold typeEntries
    refine Run.bind ((hl v (by simp)).shape P s k.value hw hx) fun a s1 hw1 hx1 g1 ha => ?_
    refine Run.bind (hput k.value loc a hw1 hx1) fun _ s2 hw2 hx2 g2 _ => ?_
    refine typeEntries_run hput rest (fun u hu => hl u (by simp [hu])) ?_ hw2 hx2
    intro e he
    rcases mem_omap_set he with h | h
    · exact (g1.trans g2).isBase (hm e h)
    · subst h; exact g2.isBase ha.2

/-- A library as far as it has been decoded. -/
structure LibSoFar (s : St) (path : String) (n : YNode) (l : Lib) : Prop where
  inn : LibIn s l
  loc : l.location = path
  uses : ∀ e ∈ l.uses, UsesValue n e.2.1

theorem LibSoFar.mono {r : Prop} {π : Perm} {s' : St} {n : YNode} {l : Lib} (g : G r π s s') (h : LibSoFar s path n l) : LibSoFar s' path n l :=
  ⟨h.inn.mono g.longer, h.loc, h.uses⟩

theorem libraryEntry_run {n k v : YNode} {l : Lib} (he : Entry k v n.content) (hv : Sub E K T c path v) (hl : LibSoFar s path n l) (hw : W E P s) (hx : K.X s) :
    Run E K False P (only T) (libraryEntry E c k v l) s (fun l' s' => LibSoFar s' path n l') := by
  have hloc := hl.loc
  unfold libraryEntry
  split
  · rename_i hk
    have h0 : Run E K False P (only T) (sectionOf v l.uses fun n => M.lift (usesEntries n [])) s
        (fun m s' => s' = s ∧ ∀ e ∈ m, UsesValue n e.2.1 ∧ (e ∈ l.uses ∨ e.2.2 = none)) := by
      unfold sectionOf
      split
      · exact Run.ret hw hx ⟨rfl, fun e h => ⟨hl.uses e h, .inl h⟩⟩
      split
      · exact Run.err hw hx
      · refine Run.lift hw hx (noDiv_usesEntries _ _) fun m hm => ⟨rfl, fun e hem => ?_⟩
        rcases usesEntries_ok _ hm e hem with h | ⟨h1, k', v', h2, h3⟩
        · cases h
        · exact ⟨⟨k, v, k', v', he, hk, h2, h3⟩, .inr h1⟩
    refine Run.bind h0 fun m s1 hw1 hx1 _ ⟨e, hm⟩ => ?_
    subst e
    refine Run.ret hw1 hx1 ⟨⟨hl.inn.types, hl.inn.annotationTypes, fun e h => ?_⟩, hloc, fun e h => (hm e h).1⟩
    rcases (hm e h).2 with h | h
    · exact hl.inn.uses e h
    · rw [h]; exact ifSome_none
  split
  · have h0 : Run E K False P (only T) (sectionOf v l.types fun n => typeEntries c Heap.putType l.location n []) s (fun m s' => ∀ e ∈ m, IsBase s' e.2) := by
      unfold sectionOf
      split
      · exact Run.ret hw hx hl.inn.types
      split
      · exact Run.err hw hx
      · rw [hloc]
        exact typeEntries_run (fun _ _ _ h1 h2 => Run.putType h1 h2) v.content (fun u hu => hv.content hu) (by simp) hw hx
    refine Run.bind h0 fun m s1 hw1 hx1 g1 hm => Run.ret hw1 hx1 ?_
    have hl1 := hl.mono g1
    exact ⟨⟨hm, hl1.inn.annotationTypes, hl1.inn.uses⟩, hloc, hl.uses⟩
  split
  · have h0 : Run E K False P (only T) (sectionOf v l.annotationTypes fun n => typeEntries c Heap.putAnnotationType l.location n []) s (fun m s' => ∀ e ∈ m, IsBase s' e.2) := by
      unfold sectionOf
      split
      · exact Run.ret hw hx hl.inn.annotationTypes
      split
      · exact Run.err hw hx
      · rw [hloc]
        exact typeEntries_run (fun _ _ _ h1 h2 => Run.putAnnotationType h1 h2) v.content (fun u hu => hv.content hu) (by simp) hw hx
    refine Run.bind h0 fun m s1 hw1 hx1 g1 hm => Run.ret hw1 hx1 ?_
    have hl1 := hl.mono g1
    exact ⟨⟨hl1.inn.types, hm, hl1.inn.uses⟩, hloc, hl.uses⟩
  split
  · refine Run.bind (Q := fun _ s' => s' = s) (Run.lift hw hx noDiv_orErr fun _ _ => rfl) fun _ s1 hw1 hx1 _ e => ?_
    subst e; exact Run.ret hw1 hx1 hl
  split
  · exact Run.bind (unmarshalExt_run hw hx) fun _ s1 hw1 hx1 g1 _ => Run.ret hw1 hx1 (hl.mono g1)
  · exact Run.ret hw hx hl

theorem libraryEntries_run {n : YNode} : ∀ (L : List YNode) {l : Lib} {s : St}, (∀ k v, Entry k v L → Entry k v n.content) → (∀ u ∈ L, Sub E K T c path u) →
    LibSoFar s path n l → W E P s → K.X s → Run E K False P (only T) (libraryEntries E c L l) s (fun l' s' => LibSoFar s' path n l')
  | [], l, s, _, _, hl, hw, hx => Run.ret hw hx hl
  | [_], l, s, _, _, hl, hw, hx => Run.panic
  | k :: v :: rest, l, s, hE, hS, hl, hw, hx => by
    unfold libraryEntries
    refine Run.bind (libraryEntry_run (hE k v .here) (hS v (by simp)) hl hw hx) fun l1 s1 hw1 hx1 _ hl1 => ?_
    exact libraryEntries_run rest (fun k' v' h => hE k' v' (.there h)) (fun u hu => hS u (by simp [hu])) hl1 hw1 hx1

/-- Decoding a library: its types within `K` and `T'`, then linking within `K'` and `T`. -/
theorem decodeLibrary_run {text : String} (hT : T path) (hTT : ∀ p, T' p → T p) (hX : ∀ s, K'.X s → K.X s) (hd : K'.div → K.div)
    (hS : ∀ d, E.yamlParse text = some d → ∀ u ∈ (docRoot d).content, Sub E K T' c path u)
    (hU : ∀ d v, E.yamlParse text = some d → UsesValue (docRoot d) v → LibSpec E K' T c (E.joinDir path v))
    (hreg : ∀ s1 l, K.X s1 → G False (only T') s s1 → l.location = path → K'.X (regLib s1 path l))
    (hw : W E P s) (hx : K.X s) :
    Run E K False P (only T) (decodeLibrary E c text path) s (fun i s' => ∃ l, s'.libs[i]? = some l ∧ l.location = path ∧ ∃ f, getFragment s' path = some f) := by
  unfold decodeLibrary
  have h0 : Run E K False P (only T') (decodeFragment E text fun n => libraryEntries E c n.content { location := path }) s
      (fun l s' => ∃ d, E.yamlParse text = some d ∧ LibSoFar s' path (docRoot d) l) := by
    refine decodeFragment_run hw hx fun d hd => ?_
    refine (libraryEntries_run (n := docRoot d) _ (fun _ _ h => h) (hS d hd) ?_ hw hx).post fun l s' _ _ h => ⟨d, hd, h⟩
    exact ⟨⟨by simp, by simp, by intro e he; cases he⟩, rfl, by simp⟩
  refine Run.bind' h0 (only_le hTT) (Perm.Le.refl _ _) fun l s1 hw1 hx1 g1 ⟨d, hd1, hl⟩ => ?_
  have g2 : G False (only T) s1 (regLib s1 path l) := G.regLib hT
  refine Run.jump (K' := K') (t := regLib s1 path l) (π' := (only T).addL s1.libs.length)
    (m' := M.bind (linkUses E c s1.libs.length path l.uses) fun good => if good then M.ret s1.libs.length else M.err "parse uses library")
    ?_ g2 (Perm.Le.addL (Nat.le_refl _)) hX hd ?_
  · exact putFragment_run _ _ _ _
  · have hlib : (regLib s1 path l).libs[s1.libs.length]? = some l := by rw [regLib_eq]; simp
    refine (linkUses_run (P := P) l.uses ?_ (hw1.regLib hl.inn hl.loc) (hreg s1 l hx1 g1 hl.loc) hlib hl.loc ?_).post fun j s2 _ g3 ⟨e, l', h1, h2⟩ => ?_
    · exact fun e he => hU d _ hd1 (hl.uses e he)
    · intro k v link hk
      exact .inl ⟨(k, v, link), OMap.mem_of_get hk, rfl⟩
    · subst e
      obtain ⟨f, hf⟩ := regLib_registered (s := s1) (path := path) (l := l)
      exact ⟨l', h1, h2, f, g3.frag _ _ hf⟩

theorem parseLibrary_run (hT : T path) (hTT : ∀ p, T' p → T p) (hX : ∀ s, K'.X s → K.X s) (hd : K'.div → K.div)
    (hS : ∀ text d, E.file path = some text → E.yamlParse text = some d → ∀ u ∈ (docRoot d).content, Sub E K T' c path u)
    (hU : ∀ text d v, E.file path = some text → E.yamlParse text = some d → UsesValue (docRoot d) v → LibSpec E K' T c (E.joinDir path v))
    (hreg : ∀ s1 l, E.file path ≠ none → getFragment s path = none → K.X s1 → G False (only T') s s1 → l.location = path → K'.X (regLib s1 path l))
    (hw : W E P s) (hx : K.X s) :
    Run E K False P (only T) (parseLibrary E c path) s (fun i s' => ∃ l, s'.libs[i]? = some l ∧ l.location = path ∧ ∃ f, getFragment s' path = some f) := by
  cases hg : getFragment s path with
  | some fr =>
    cases fr with
    | library i =>
      refine Run.of_eq (m' := M.ret i) (by simp [parseLibrary, hg]) (Run.ret hw hx ?_)
      obtain ⟨l, h1, h2⟩ := hw.frags _ (OMap.mem_of_get hg)
      exact ⟨l, h1, h2, _, hg⟩
    | namedExample i => exact Run.of_eq (m' := M.panic "interface conversion") (by simp [parseLibrary, hg, M.panic]) Run.panic
    | dataType i => exact Run.of_eq (m' := M.panic "interface conversion") (by simp [parseLibrary, hg, M.panic]) Run.panic
  | none =>
    cases hf : E.file path with
    | none => exact Run.of_eq (m' := M.err "open fragment file") (by simp [parseLibrary, hg, hf, M.err]) (Run.err hw hx)
    | some text =>
      refine Run.of_eq (m' := M.bind (M.lift (checkFragmentKind path text .library)) fun _ => decodeLibrary E c text path) (by simp [parseLibrary, hg, hf]) ?_
      refine Run.bind (Q := fun _ s' => s' = s) (Run.lift hw hx noDiv_checkKind fun _ _ => rfl) fun _ s1 hw1 hx1 _ e => ?_
      subst e
      exact decodeLibrary_run hT hTT hX hd (fun d => hS text d hf) (fun d v => hU text d v hf) (fun s2 l => hreg s2 l (by rw [hf]; simp) hg) hw1 hx1

/-! ## Data types -/

theorem dataTypeEntries_ok {n : YNode} : ∀ (l : List YNode) {m : OMap (String × Option Nat)} {fs : List YNode} {res : OMap (String × Option Nat) × List YNode},
    dataTypeEntries l m fs = .ok res → (∀ k v, Entry k v l → Entry k v n.content) → (∀ u ∈ l, u ∈ n.content) →
    (∀ e ∈ m, e.2.2 = none ∧ UsesValue n e.2.1) → (∀ u ∈ fs, u ∈ n.content) →
    (∀ e ∈ res.1, e.2.2 = none ∧ UsesValue n e.2.1) ∧ ∀ u ∈ res.2, u ∈ n.content
  | [], m, fs, res, h, _, _, hm, hfs => by cases h; exact ⟨hm, hfs⟩
  | [_], m, fs, res, h, _, _, hm, hfs => by cases h
  | k :: v :: rest, m, fs, res, h, hE, hin, hm, hfs => by
    have hE' : ∀ k' v', Entry k' v' rest → Entry k' v' n.content := fun k' v' h => hE k' v' (.there h)
    have hin' : ∀ u ∈ rest, u ∈ n.content := fun u hu => hin u (by simp [hu])
    unfold dataTypeEntries at h
    split at h
    · exact dataTypeEntries_ok rest h hE' hin' hm hfs
    split at h
    · rename_i hk
      split at h
      · exact dataTypeEntries_ok rest h hE' hin' hm hfs
      · cases hu : usesEntries v.content [] with
        | ok m' =>
          rw [hu] at h
          refine dataTypeEntries_ok rest h hE' hin' ?_ hfs
          intro e he
          rcases usesEntries_ok _ hu e he with h1 | ⟨h1, k', v', h2, h3⟩
          · cases h1
          · exact ⟨h1, k, v, k', v', hE k v .here, hk, h2, h3⟩
        | err e => rw [hu] at h; cases h
        | panic e => rw [hu] at h; cases h
        | diverge => rw [hu] at h; cases h
    · refine dataTypeEntries_ok rest h hE' hin' hm ?_
      intro u hu
      rcases List.mem_append.1 hu with h1 | h1
      · exact hfs u h1
      · exact hin u (by simp only [List.mem_cons, List.not_mem_nil, or_false] at h1 ⊢; tauto)

/-- A data type as far as it has been decoded. -/
structure DTSoFar (s : St) (path : String) (n : YNode) (d : DT) : Prop where
  inn : DTIn s d
  loc : d.location = path
  uses : ∀ e ∈ d.uses, UsesValue n e.2.1

theorem unmarshalDataType_run {n : YNode} (hS : ∀ fs, (∀ u ∈ fs, u ∈ n.content) → ShapeSpec E K T c (.mk .mapping "" "" fs) path) (hw : W E P s) (hx : K.X s) :
    Run E K False P (only T) (unmarshalDataType E c path n) s (fun d s' => DTSoFar s' path n d) := by
  unfold unmarshalDataType
  refine Run.bind (Q := fun (res : OMap (String × Option Nat) × List YNode) s' => s' = s ∧ (∀ e ∈ res.1, e.2.2 = none ∧ UsesValue n e.2.1) ∧ ∀ u ∈ res.2, u ∈ n.content)
    (Run.lift hw hx (noDiv_dataTypeEntries _ _ _) fun res h => ⟨rfl, dataTypeEntries_ok n.content h (fun _ _ h => h) (fun _ h => h) (by simp) (by simp)⟩)
    fun res s1 hw1 hx1 _ ⟨e, h1, h2⟩ => ?_
  subst e
  refine Run.bind (hS res.2 h2 P s1 _ hw1 hx1) fun a s2 hw2 hx2 _ ha => Run.ret hw2 hx2 ?_
  exact ⟨⟨⟨a, rfl, ha.2⟩, fun e he => by rw [(h1 e he).1]; exact ifSome_none⟩, rfl, fun e he => (h1 e he).2⟩

/-- Decoding a data type: its type within `K` and `T'`, then linking within `K'` and `T`. -/
theorem decodeDataType_run {text : String} (hT : T path) (hTT : ∀ p, T' p → T p) (hX : ∀ s, K'.X s → K.X s) (hd : K'.div → K.div)
    (hJ : ".json".toList <:+ path.toList → ShapeSpec E K T' c (.mk .mapping "" "" [YNode.str "type", YNode.str text]) path)
    (hS : ∀ d, E.yamlParse text = some d → ¬ ".json".toList <:+ path.toList → ∀ fs, (∀ u ∈ fs, u ∈ (docRoot d).content) → ShapeSpec E K T' c (.mk .mapping "" "" fs) path)
    (hU : ∀ d v, E.yamlParse text = some d → ¬ ".json".toList <:+ path.toList → UsesValue (docRoot d) v → LibSpec E K' T c (E.joinDir path v))
    (hreg : ∀ s1 d, K.X s1 → G False (only T') s s1 → d.location = path → K'.X (regDT s1 path d))
    (hw : W E P s) (hx : K.X s) :
    Run E K False P (only T) (decodeDataType E c text path) s (fun i s' => ∃ l, s'.dts[i]? = some l ∧ l.location = path ∧ ∃ f, getFragment s' path = some f) := by
  unfold decodeDataType
  split
  · rename_i hjson
    have h0 : Run E K False P (only T') (unmarshalDataType E c path (jsonDataTypeNode text)) s (fun d s' => DTIn s' d ∧ d.location = path ∧ d.uses = []) := by
      have hent : dataTypeEntries [YNode.str "type", YNode.str text] [] [] = .ok ([], [YNode.str "type", YNode.str text]) := by
        simp [dataTypeEntries, YNode.str, YNode.value]
      unfold unmarshalDataType jsonDataTypeNode
      refine Run.bind (Q := fun (res : OMap (String × Option Nat) × List YNode) s' => s' = s ∧ res = ([], [YNode.str "type", YNode.str text]))
        (Run.lift hw hx (noDiv_dataTypeEntries _ _ _) fun res h => ⟨rfl, ?_⟩) fun res s1 hw1 hx1 _ ⟨e, e'⟩ => ?_
      · have h : dataTypeEntries [YNode.str "type", YNode.str text] [] [] = .ok res := h
        rw [hent] at h; cases h; rfl
      · subst e e'
        refine Run.bind (hJ hjson P s1 _ hw1 hx1) fun a s2 hw2 hx2 _ ha => Run.ret hw2 hx2 ?_
        exact ⟨⟨⟨a, rfl, ha.2⟩, fun e he => by cases he⟩, rfl, rfl⟩
    refine Run.bind' h0 (only_le hTT) (Perm.Le.refl _ _) fun d s1 hw1 hx1 g1 ⟨hin, hloc, huses⟩ => ?_
    have g2 : G False (only T) s1 (regDT s1 path d) := G.regDT hT
    refine Run.jump (K' := K') (t := regDT s1 path d) (π' := (only T).addD s1.dts.length) (m' := M.ret s1.dts.length) ?_ g2 (Perm.Le.addD (Nat.le_refl _)) hX hd ?_
    · exact putFragment_run _ _ _ _
    · have hlib : (regDT s1 path d).dts[s1.dts.length]? = some d := by rw [regDT_eq]; simp
      refine Run.ret ((hw1.regDT hin hloc).dropD fun l hl => ?_) (hreg s1 d hx1 g1 hloc) ⟨d, hlib, hloc, regDT_registered⟩
      rw [hlib] at hl; cases hl
      rw [huses]; intro k v link h; cases h
  · rename_i hjson
    have h0 : Run E K False P (only T') (decodeFragment E text (unmarshalDataType E c path)) s (fun d s' => ∃ n, E.yamlParse text = some n ∧ DTSoFar s' path (docRoot n) d) := by
      refine decodeFragment_run hw hx fun d hd => ?_
      exact (unmarshalDataType_run (hS d hd hjson) hw hx).post fun l s' _ _ h => ⟨d, hd, h⟩
    refine Run.bind' h0 (only_le hTT) (Perm.Le.refl _ _) fun d s1 hw1 hx1 g1 ⟨n, hn, hl⟩ => ?_
    have g2 : G False (only T) s1 (regDT s1 path d) := G.regDT hT
    refine Run.jump (K' := K') (t := regDT s1 path d) (π' := (only T).addD s1.dts.length)
      (m' := M.bind (linkDataTypeUses E c s1.dts.length path d.uses) fun _ => M.ret s1.dts.length)
      ?_ g2 (Perm.Le.addD (Nat.le_refl _)) hX hd ?_
    · exact putFragment_run _ _ _ _
    · have hlib : (regDT s1 path d).dts[s1.dts.length]? = some d := by rw [regDT_eq]; simp
      refine (linkDataTypeUses_run (P := P) d.uses ?_ (hw1.regDT hl.inn hl.loc) (hreg s1 d hx1 g1 hl.loc) hlib hl.loc ?_).post fun j s2 _ g3 ⟨e, l', h1, h2⟩ => ?_
      · exact fun e he => hU n _ hn hjson (hl.uses e he)
      · intro k v link hk
        exact .inl ⟨(k, v, link), OMap.mem_of_get hk, rfl⟩
      · subst e
        obtain ⟨f, hf⟩ := regDT_registered (s := s1) (path := path) (d := d)
        exact ⟨l', h1, h2, f, g3.frag _ _ hf⟩

theorem parseDataType_run (hT : T path) (hTT : ∀ p, T' p → T p) (hX : ∀ s, K'.X s → K.X s) (hd : K'.div → K.div)
    (hJ : ∀ text, E.file path = some text → ".json".toList <:+ path.toList → ShapeSpec E K T' c (.mk .mapping "" "" [YNode.str "type", YNode.str text]) path)
    (hS : ∀ text d, E.file path = some text → E.yamlParse text = some d → ¬ ".json".toList <:+ path.toList → ∀ fs, (∀ u ∈ fs, u ∈ (docRoot d).content) →
      ShapeSpec E K T' c (.mk .mapping "" "" fs) path)
    (hU : ∀ text d v, E.file path = some text → E.yamlParse text = some d → ¬ ".json".toList <:+ path.toList → UsesValue (docRoot d) v → LibSpec E K' T c (E.joinDir path v))
    (hreg : ∀ s1 d, E.file path ≠ none → getFragment s path = none → K.X s1 → G False (only T') s s1 → d.location = path → K'.X (regDT s1 path d))
    (hw : W E P s) (hx : K.X s) :
    Run E K False P (only T) (parseDataType E c path) s (fun i s' => ∃ l, s'.dts[i]? = some l ∧ l.location = path ∧ ∃ f, getFragment s' path = some f) := by
  cases hg : getFragment s path with
  | some fr =>
    cases fr with
    | dataType i =>
      refine Run.of_eq (m' := M.ret i) (by simp [parseDataType, hg]) (Run.ret hw hx ?_)
      obtain ⟨l, h1, h2⟩ := hw.frags _ (OMap.mem_of_get hg)
      exact ⟨l, h1, h2, _, hg⟩
    | namedExample i => exact Run.of_eq (m' := M.panic "interface conversion") (by simp [parseDataType, hg, M.panic]) Run.panic
    | library i => exact Run.of_eq (m' := M.panic "interface conversion") (by simp [parseDataType, hg, M.panic]) Run.panic
  | none =>
    cases hf : E.file path with
    | none => exact Run.of_eq (m' := M.err "open fragment file") (by simp [parseDataType, hg, hf, M.err]) (Run.err hw hx)
    | some text =>
      refine Run.of_eq (m' := M.bind (M.lift (checkFragmentKind path text .dataType)) fun _ => decodeDataType E c text path) (by simp [parseDataType, hg, hf]) ?_
      refine Run.bind (Q := fun _ s' => s' = s) (Run.lift hw hx noDiv_checkKind fun _ _ => rfl) fun _ s1 hw1 hx1 _ e => ?_
      subst e
      exact decodeDataType_run hT hTT hX hd (hJ text hf) (fun d => hS text d hf) (fun d v => hU text d v hf) (fun s2 l => hreg s2 l (by rw [hf]; simp) hg) hw1 hx1

end

end GoRaml.Load
