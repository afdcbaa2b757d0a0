import Verif.Lemmas.LoadParse
import Verif.Lemmas.ApartResolve
import Verif.Lemmas.ReadParse
import Verif.Spec.History

/-!
# Another call on the same object
-/

namespace GoRaml.Load

open GoRaml GoRaml.Spec

variable {E : Env} {s : St}

/-- What a later call leaves as it was. -/
structure Kept (s s' : St) : Prop where
  base : ∀ a b, s.base a = some b → s'.base a = some b
  lib : ∀ (i : Nat) (l : Lib), s.libs[i]? = some l → s'.libs[i]? = some l
  dt : ∀ (i : Nat) (d : DT), s.dts[i]? = some d → s'.dts[i]? = some d
  slices : s.slices <+: s'.slices
  frag : ∀ p f, getFragment s p = some f → getFragment s' p = some f

theorem Kept.refl (s : St) : Kept s s := ⟨fun _ _ h => h, fun _ _ h => h, fun _ _ h => h, List.prefix_rfl, fun _ _ h => h⟩

theorem Kept.trans {s t u : St} (h : Kept s t) (k : Kept t u) : Kept s u :=
  ⟨fun a b e => k.base a b (h.base a b e), fun i l e => k.lib i l (h.lib i l e), fun i d e => k.dt i d (h.dt i d e), h.slices.trans k.slices, fun p f e => k.frag p f (h.frag p f e)⟩

/-- Nothing but unresolved types changes. -/
theorem G.kept {r : Prop} {s' : St} (g : G r (only allPaths) s s') (hc : ∀ a b, s.base a = some b → Typed b) : Kept s s' where
  base := fun a b hb => by
    rcases g.base a (List.getElem?_eq_some_iff.1 hb).1 (fun h => h) with h | ⟨_, h, _⟩
    · exact h.trans hb
    · exact absurd ⟨b, hb, hc a b hb⟩ h
  lib := fun i l hl => (g.lib i (List.getElem?_eq_some_iff.1 hl).1 (fun h => h)).trans hl
  dt := fun i d hd => (g.dt i (List.getElem?_eq_some_iff.1 hd).1 (fun h => h)).trans hd
  slices := g.slices
  frag := g.frag

theorem loaded_again (hl : Loaded E s) {n m : Nat} {path : String} {f : FragRef} {s' : St} (hg : getFragment s path = none)
    (h : parseFromPath E n m path s = (.ok f, s')) : Loaded E s' ∧ Kept s s' := by
  unfold parseFromPath at h
  cases hfile : E.file path with
  | none => rw [hfile] at h; cases h
  | some text =>
    rw [hfile] at h
    simp only [parseFragment] at h
    obtain ⟨f', s1, h1, h2⟩ := M.bind_ok.1 h
    obtain ⟨_, s2, h3, h4⟩ := M.bind_ok.1 h2
    obtain ⟨_, s3, h5, h6⟩ := M.bind_ok.1 h4
    cases h6
    have hS := specs (K := anyCtl) trivial (anyRegs E) n
    have hrun := decodeEntry_run hl.w trivial
      ((decodeLibrary_spec hS (anyRegs E) (fun _ _ => trivial) hfile hg hl.w trivial).post fun _ _ _ _ _ => trivial)
      ((decodeDataType_spec hS (anyRegs E) (fun _ _ => trivial) hfile hg hl.w trivial).post fun _ _ _ _ _ => trivial)
    unfold Run at hrun
    rw [h1] at hrun
    obtain ⟨hw1, _, g1, _⟩ := hrun
    obtain ⟨hw2, _, hu2, g2, _⟩ := resolveLoop_ok (K := anyCtl) trivial (anyRegs E) (fun _ _ => trivial) n m true s1 s2 hw1 trivial h3
    obtain ⟨⟨exts, rfl⟩, hx⟩ := resolveDomainExtensions_ok h5
    have g1' := (g1.kept fun a b hb => hl.typed hb)
    refine ⟨⟨hw2.exts, hu2, hx⟩, ?_⟩
    have hb : ∀ a b, s.base a = some b → s2.base a = some b := fun a b hb => by
      have h1 := g1'.base a b hb
      rcases g2.base a (List.getElem?_eq_some_iff.1 h1).1 (fun h => h) with h | ⟨_, h, _⟩
      · exact h.trans h1
      · exact absurd ⟨b, h1, hl.typed hb⟩ h
    exact ⟨hb, fun i l hl => (g2.lib i (List.getElem?_eq_some_iff.1 (g1'.lib i l hl)).1 (fun h => h)).trans (g1'.lib i l hl),
      fun i d hd => (g2.dt i (List.getElem?_eq_some_iff.1 (g1'.dt i d hd)).1 (fun h => h)).trans (g1'.dt i d hd), g1'.slices.trans g2.slices,
      fun p f hf => g2.frag p f (g1'.frag p f hf)⟩

theorem loaded_new : Loaded E {} := ⟨W.empty E, rfl, fun i de h => by simp at h⟩

end GoRaml.Load

namespace GoRaml.Read

open GoRaml GoRaml.Spec GoRaml.Load

variable {E : Env} {s s' : St}

theorem decodeEntry_again {n : Nat} {text path : String} {f : FragRef} (ht : Tied E s) (hf : E.file path = some text) (hg : getFragment s path = none)
    (hr : decodeEntry E n text path s = (.ok f, s')) : Call E s s' := by
  unfold decodeEntry at hr
  obtain ⟨head, s1, r1, r2⟩ := M.bind_ok.1 hr
  obtain ⟨_, rfl⟩ := M.lift_ok.1 r1
  obtain ⟨kind, s1, r3, r4⟩ := M.bind_ok.1 r2
  obtain ⟨_, rfl⟩ := M.lift_ok.1 r3
  cases kind with
  | library =>
    obtain ⟨i, s2, r5, r6⟩ := M.bind_ok.1 r4
    obtain ⟨_, rfl⟩ := M.ret_ok.1 r6
    exact decodeLibrary_reads (good E n) ht hf r5
  | dataType =>
    obtain ⟨i, s2, r5, r6⟩ := M.bind_ok.1 r4
    obtain ⟨_, rfl⟩ := M.ret_ok.1 r6
    exact (decodeDataType_reads (good E n) ht hf r5).1
  | namedExample =>
    obtain ⟨i, s2, r5, r6⟩ := M.bind_ok.1 r4
    obtain ⟨_, rfl⟩ := M.ret_ok.1 r6
    exact (decodeNamedExample_reads ht hf hg r5).1

/-- What calls that succeed ensure. -/
structure Held (E : Env) (s : St) : Prop where
  loaded : Loaded E s
  tied : Tied E s
  new : New E True .all {} s

theorem held_new : Held E {} := ⟨loaded_new, tied_empty, .refl _⟩

/-- The maps of earlier types stay as they are. -/
structure KeptMaps (s s' : St) : Prop where
  props : ∀ (i : Nat) m, s.pmaps[i]? = some m → s'.pmaps[i]? = some m
  patProps : ∀ (i : Nat) m, s.ppmaps[i]? = some m → s'.ppmaps[i]? = some m
  facets : ∀ (i : Nat) m, s.fmaps[i]? = some m → s'.fmaps[i]? = some m

theorem Later.keptMaps {n : Region} (h : Later E True .all n s s') (ht : Tied E s) (hc : ∀ a b, s.base a = some b → Typed b) : KeptMaps s s' where
  props := fun i m => h.p i m trivial
  patProps := fun i m => h.q i m trivial
  facets := fun i m hm => by
    have hi : i < s.bases.length := ht.len ▸ lt_of_get hm
    rcases h.b i _ trivial (List.getElem?_eq_getElem hi) with ⟨_, h2⟩ | ⟨_, h2, _⟩
    · exact h2.trans hm
    · exact absurd (hc _ _ (List.getElem?_eq_getElem hi)) (Unk.not_typed h2)

theorem held_again (hs : Held E s) {n m : Nat} {path : String} {f : FragRef} (hg : getFragment s path = none)
    (h : parseFromPath E n m path s = (.ok f, s')) : Held E s' ∧ Kept s s' ∧ KeptMaps s s' := by
  obtain ⟨hl, hk⟩ := loaded_again hs.loaded hg h
  unfold parseFromPath at h
  cases hfile : E.file path with
  | none => rw [hfile] at h; cases h
  | some text =>
    rw [hfile] at h
    simp only [parseFragment] at h
    obtain ⟨f', s1, h1, h2⟩ := M.bind_ok.1 h
    obtain ⟨_, s2, h3, h4⟩ := M.bind_ok.1 h2
    obtain ⟨_, s3, h5, h6⟩ := M.bind_ok.1 h4
    cases h6
    have hS := specs (K := anyCtl) trivial (anyRegs E) n
    have hrun := decodeEntry_run hs.loaded.w trivial
      ((decodeLibrary_spec hS (anyRegs E) (fun _ _ => trivial) hfile hg hs.loaded.w trivial).post fun _ _ _ _ _ => trivial)
      ((decodeDataType_spec hS (anyRegs E) (fun _ _ => trivial) hfile hg hs.loaded.w trivial).post fun _ _ _ _ _ => trivial)
    unfold Run at hrun
    rw [h1] at hrun
    obtain ⟨hw1, _⟩ := hrun
    have k1 := decodeEntry_again hs.tied hfile hg h1
    have k2 := resolveLoop_reads n m true s1 s2 hw1 k1.tied h3
    have k3 : Linked s2 s' := resolveExtLoop_linked _ _ _ _ h5
    have l1 : Later E True .all .none s s1 := k1.chg.laterT (Nat.le_of_eq hs.tied.len.symm) Region.apart_none (fun _ _ hz => hz.elim)
    have l2 : Later E True .all (since s1) s1 s2 := k2.later.mono ⟨fun _ _ h => h, fun _ _ => trivial, fun _ _ => trivial⟩ .rfl
    have hl3 := k3.later (E := E)
    have l12 := Later.trans k1.tied l1 l2 (Region.le_all.on _) Region.none_le
    have l : Later E True .all ((Region.none.or (since s1)).or .none) s s' := Later.trans k2.tied l12 hl3 (Region.le_all.on _) Region.le_all
    have hn := ((k1.new.mono (ρ' := True) (fun h => h.elim) (Region.le_all)).trans l2 k2.libs k2.dts k2.new).mono (rg' := .all) id Region.le_all
    obtain ⟨_, exts, rfl⟩ := k3
    have hn' := (hn.later hl3 rfl rfl).mono (rg' := .all) id Region.le_all
    exact ⟨⟨hl, k2.tied.same rfl rfl rfl (List.prefix_refl _) rfl, (hs.new.trans l (k1.chg.libs.trans k2.libs) (k1.chg.dts.trans k2.dts) hn').mono id Region.le_all⟩, hk,
      l.keptMaps hs.tied fun _ _ => hs.loaded.typed⟩

theorem successes_held (hs : Held E s) (h : Successes E s s') : Held E s' ∧ Kept s s' ∧ KeptMaps s s' := by
  induction h with
  | none => exact ⟨hs, .refl s, fun _ _ h => h, fun _ _ h => h, fun _ _ h => h⟩
  | call _ hg he ih =>
    obtain ⟨h1, h2, h3⟩ := held_again ih.1 hg he
    exact ⟨h1, ih.2.1.trans h2, fun i m h => h3.props i m (ih.2.2.props i m h), fun i m h => h3.patProps i m (ih.2.2.patProps i m h),
      fun i m h => h3.facets i m (ih.2.2.facets i m h)⟩

end GoRaml.Read

namespace GoRaml.Apart

open GoRaml GoRaml.Spec

/-- The invariant after any calls. -/
theorem afterCalls_own {E : Env} {s : St} (h : AfterCalls E s) : I s := by
  induction h with
  | new => exact init_own
  | call n m path _ ih =>
    have h := parseFromPath_own (E := E) (n := n) (m := m) (path := path) ih
    unfold Own Tame.Tame at h
    exact h.1

end GoRaml.Apart
