import Verif.Lemmas.LoadParse

/-!
# The result of parsing is the entry point
-/

namespace GoRaml.Load

open GoRaml GoRaml.Spec

/-- The kind of a fragment. -/
def fragKind : FragRef → FragmentKind
  | .library _ => .library
  | .dataType _ => .dataType
  | .namedExample _ => .namedExample

theorem decodeEntry_ok {E : Env} {n : Nat} {text path : String} {f : FragRef} {s' : St} (hfile : E.file path = some text)
    (h : decodeEntry E n text path {} = (.ok f, s')) : FragIn s' path f ∧ (readHead text).bind identifyFragment = .ok (fragKind f) ∧
      ∀ i, f = .namedExample i → getFragment s' path = some f := by
  have hg : getFragment ({} : St) path = none := by simp [getFragment, OMap.get]
  have hS := specs (E := E) (K := anyCtl) trivial (anyRegs E) n
  unfold decodeEntry at h
  obtain ⟨head, s1, e1, h⟩ := M.bind_ok.1 h
  obtain ⟨kind, s2, e2, h⟩ := M.bind_ok.1 h
  unfold M.lift at e1 e2
  simp only [Prod.mk.injEq] at e1 e2
  obtain ⟨e1, rfl⟩ := e1
  obtain ⟨e2, rfl⟩ := e2
  have hk : (readHead text).bind identifyFragment = .ok kind := by rw [e1]; exact e2
  cases kind with
  | library =>
    obtain ⟨i, s3, e3, h⟩ := M.bind_ok.1 h
    cases h
    have r := decodeLibrary_spec hS (anyRegs E) (T := fun _ => True) (fun _ _ => trivial) hfile hg (W.empty E) trivial
    unfold Run at r
    rw [e3] at r
    obtain ⟨_, _, _, l, h1, h2, _⟩ := r
    exact ⟨⟨l, h1, h2⟩, hk, fun _ h => by cases h⟩
  | dataType =>
    obtain ⟨i, s3, e3, h⟩ := M.bind_ok.1 h
    cases h
    have r := decodeDataType_spec hS (anyRegs E) (T := fun _ => True) (fun _ _ => trivial) hfile hg (W.empty E) trivial
    unfold Run at r
    rw [e3] at r
    obtain ⟨_, _, _, l, h1, h2, _⟩ := r
    exact ⟨⟨l, h1, h2⟩, hk, fun _ h => by cases h⟩
  | namedExample =>
    obtain ⟨i, s3, e3, h⟩ := M.bind_ok.1 h
    cases h
    have r := decodeNamedExample_run (E := E) (K := anyCtl) (P := noPerm) (π := only allPaths) (text := text) (path := path) trivial (W.empty E) trivial
    unfold Run at r
    rw [e3] at r
    refine ⟨r.2.2.2, hk, fun _ _ => ?_⟩
    unfold decodeNamedExample at e3
    obtain ⟨m, s4, e4, e3⟩ := M.bind_ok.1 e3
    have r4 := decodeFragment_run (E := E) (K := anyCtl) (P := noPerm) (π := only fun _ => False) (r := False) (text := text) (f := fun n => namedExamples E path n.content []) (Q := fun _ _ => True)
      (W.empty E) trivial
      fun d _ => namedExamples_run (E := E) (loc := path) (docRoot d).content (m := []) (W.empty E) trivial |>.post fun _ _ _ _ _ => trivial
    unfold Run at r4
    rw [e4] at r4
    have hn : OMap.get s4.fragments path = none := by
      cases hx : OMap.get s4.fragments path with
      | none => rfl
      | some f =>
        rcases r4.2.2.1.fresh path f hx with h | h
        · cases h
        · exact h.elim
    obtain ⟨i', s5, e5, e3⟩ := M.bind_ok.1 e3
    obtain ⟨_, s6, e6, e3⟩ := M.bind_ok.1 e3
    cases e3
    cases e5
    unfold putFragment at e6
    simp only [hn] at e6
    cases e6
    simp [getFragment, OMap.get_set]

theorem parseFromPath_entry {E : Env} {n m : Nat} {path : String} {f : FragRef} {s : St} (h : parseFromPath E n m path {} = (.ok f, s)) :
    FragIn s path f ∧ (∃ text, E.file path = some text ∧ (readHead text).bind identifyFragment = .ok (fragKind f)) ∧
      ∀ i, f = .namedExample i → getFragment s path = some f := by
  unfold parseFromPath at h
  cases hfile : E.file path with
  | none => rw [hfile] at h; cases h
  | some text =>
    rw [hfile] at h
    simp only [parseFragment] at h
    obtain ⟨f', s1, h1, h2⟩ := M.bind_ok.1 h
    obtain ⟨_, s2, h3, h4⟩ := M.bind_ok.1 h2
    obtain ⟨_, s3, h5, h6⟩ := M.bind_ok.1 h4
    cases h6
    have hrun := decodeEntry_keeps (K := anyCtl) trivial (anyRegs E) n hfile trivial
    unfold Run at hrun
    rw [h1] at hrun
    obtain ⟨hw1, hx1, _, _⟩ := hrun
    obtain ⟨hw2, hx2, hu2, g, _⟩ := resolveLoop_ok (K := anyCtl) trivial (anyRegs E) (fun _ _ => trivial) n m true s1 s2 hw1 hx1 h3
    obtain ⟨⟨exts, rfl⟩, hl⟩ := resolveDomainExtensions_ok h5
    obtain ⟨p1, p2, p3⟩ := decodeEntry_ok hfile h1
    refine ⟨?_, ⟨text, rfl, p2⟩, fun i hi => g.frag path f (p3 i hi)⟩
    cases f with
    | library i =>
      obtain ⟨l, q1, q2⟩ := p1
      obtain ⟨l', q3, q4⟩ := g.libLoc i l q1
      exact ⟨l', q3, q4.trans q2⟩
    | dataType i =>
      obtain ⟨l, q1, q2⟩ := p1
      obtain ⟨l', q3, q4⟩ := g.dtLoc i l q1
      exact ⟨l', q3, q4.trans q2⟩
    | namedExample i => exact Nat.lt_of_lt_of_le p1 g.nesLen

end GoRaml.Load
