import Verif.Lemmas.Hooks

/-!
# C40, C41: hooks
-/

namespace GoRaml

open Spec HookSt

/-- The state after a history of calls of the hook API on a fresh RAML value. -/
def HookSt.after (ops : List Op) : HookSt := ops.foldl (fun s o => o.run s) {}

/-- The lists after the same history. -/
def Spec.hookLists (ops : List Op) : HookLists := ops.foldl HookLists.apply fun _ => []

/-- C40: after every history of AppendHook, PrependHook, RemoveHook and ClearHooks calls, whatever room Go's append leaves in
the arrays, the hooks stored for every key are those of the plain lists.  So each call changes only its own key. -/
theorem c40_histories (ops : List Op) (key : String) :
    let (x, s) := (HookSt.after ops).getHooks key
    s.elems x = hookLists ops key := by
  cases hg : (HookSt.after ops).getHooks key with
  | mk x s => exact (getHooks_spec (rep_history ops rep_empty) key hg).2.2.1

/-- C40: a run calls the hooks of the key in their order, each once, until one fails, and returns the error of that one.  The
hooks may call the hook API themselves, except RemoveHook for the key that runs (see C41). -/
theorem c40_run (ops : List Op) (key : String) (beh : Behaviour) (fails : Hook → Option String)
    (hf : ∀ h s, (beh h s).2 = fails h) (hq : ∀ h s, ∀ o ∈ (beh h s).1, ∀ g, o ≠ .remove key g) :
    (callHooks beh key (HookSt.after ops)).1 = ran fails (hookLists ops key) ∧
    (callHooks beh key (HookSt.after ops)).2.1 = firstError fails (hookLists ops key) :=
  callHooks_calm hq hf (rep_history ops rep_empty)

/-- C40: if no hook fails, every non-nil hook runs, in order. -/
theorem c40_all_run (ops : List Op) (key : String) (beh : Behaviour) (hf : ∀ h s, (beh h s).2 = none)
    (hq : ∀ h s, ∀ o ∈ (beh h s).1, ∀ g, o ≠ .remove key g) :
    (callHooks beh key (HookSt.after ops)).1 = (hookLists ops key).filterMap id ∧
    (callHooks beh key (HookSt.after ops)).2.1 = none := by
  obtain ⟨h1, h2⟩ := c40_run ops key beh (fun _ => none) hf hq
  rw [h1, h2]
  generalize hookLists ops key = l
  constructor
  · induction l with
    | nil => rfl
    | cons h l ih => cases h <;> simp [ran, ih]
  · induction l with
    | nil => rfl
    | cons h l ih => cases h <;> simp [firstError, ih]

/-- Example: three hooks, one prepended, one removed again, one that appends a hook while it runs and one that fails. -/
def exHookOps : List Op :=
  [.append "k" (some ⟨1, 1⟩) 3, .append "k" (some ⟨2, 2⟩) 0, .prepend "k" (some ⟨3, 3⟩) 1, .append "other" (some ⟨1, 1⟩) 0,
   .remove "k" (some ⟨1, 1⟩), .append "k" none 0, .append "k" (some ⟨4, 4⟩) 2]

example : hookLists exHookOps "k" = [some ⟨3, 3⟩, some ⟨2, 2⟩, none, some ⟨4, 4⟩] := by decide +kernel

example : hookLists exHookOps "other" = [some ⟨1, 1⟩] := by decide +kernel

/-- A behaviour that meets the hypotheses of `c40_run`: hook 3 appends to its own key, hook 2 fails. -/
def exHookBeh : Behaviour := fun h _ =>
  (if h.id = 3 then [.append "k" (some ⟨5, 5⟩) 0] else [], if h.id = 2 then some "no" else none)

example : (callHooks exHookBeh "k" (HookSt.after exHookOps)).1 = [⟨3, 3⟩, ⟨2, 2⟩] :=
  (c40_run exHookOps "k" exHookBeh (fun h => if h.id = 2 then some "no" else none) (fun _ _ => rfl) (by
    intro h _ o ho g
    unfold exHookBeh at ho
    simp only at ho
    split at ho
    · simp only [List.mem_singleton] at ho; rw [ho]; exact Op.noConfusion
    · cases ho)).1.trans (by decide +kernel)

/-- C41, violated: whenever a hook removes itself while it runs and hooks follow it, the hook right after it is not called and
the last one is called once more at the end (with one follower these are the same, so it is called once). -/
theorem c41_self_removal (ops : List Op) (key : String) (beh : Behaviour) (pre post : List Hook) (h last : Hook)
    (hl : hookLists ops key = (pre ++ h :: (post ++ [last])).map some) (hh : ∀ s, beh h s = ([.remove key (some h)], none))
    (hq : ∀ g ∈ pre ++ (post ++ [last]), ∀ s, beh g s = ([], none)) (hcode : ∀ g ∈ pre, g.code ≠ h.code) :
    (callHooks beh key (HookSt.after ops)).1 = pre ++ h :: ((post ++ [last]).tail ++ [last]) :=
  callHooks_self_remove (rep_history ops rep_empty) hl hh hq hcode

/-- C41, violated: with two different hooks after it, the first of them is never called and the last one is called twice. -/
theorem c41_skipped_and_repeated (ops : List Op) (key : String) (beh : Behaviour) (pre mid : List Hook) (h next last : Hook)
    (hl : hookLists ops key = (pre ++ h :: (next :: mid ++ [last])).map some) (hd : (pre ++ h :: (next :: mid ++ [last])).Nodup)
    (hh : ∀ s, beh h s = ([.remove key (some h)], none))
    (hq : ∀ g ∈ pre ++ (next :: mid ++ [last]), ∀ s, beh g s = ([], none)) (hcode : ∀ g ∈ pre, g.code ≠ h.code) :
    next ∉ (callHooks beh key (HookSt.after ops)).1 ∧ (callHooks beh key (HookSt.after ops)).1.count last = 2 := by
  have := c41_self_removal ops key beh pre (next :: mid) h last hl hh hq hcode
  rw [this]
  simp only [List.cons_append, List.tail_cons, List.nodup_append, List.nodup_cons, List.mem_cons, List.mem_append] at hd
  constructor
  · simp only [List.cons_append, List.tail_cons, List.mem_append, List.mem_cons, List.not_mem_nil, or_false]
    grind
  · have h1 : last ∉ pre := by grind
    have h2 : last ≠ h := by grind
    have h3 : last ∉ mid := by grind
    simp [List.count_cons, List.count_append, List.count_eq_zero_of_not_mem h1, List.count_eq_zero_of_not_mem h3, Ne.symm h2]

/-- Example: hooks 1, 2, 3; hook 1 removes itself. -/
def exRemoveOps : List Op := [.append "k" (some ⟨1, 1⟩) 0, .append "k" (some ⟨2, 2⟩) 1, .append "k" (some ⟨3, 3⟩) 0]

def exRemoveBeh : Behaviour := fun h _ => (if h = ⟨1, 1⟩ then [.remove "k" (some h)] else [], none)

example : (callHooks exRemoveBeh "k" (HookSt.after exRemoveOps)).1 = [⟨1, 1⟩, ⟨3, 3⟩, ⟨3, 3⟩] :=
  c41_self_removal exRemoveOps "k" exRemoveBeh [] [⟨2, 2⟩] ⟨1, 1⟩ ⟨3, 3⟩ (by decide +kernel) (fun _ => rfl)
    (by intro g hg s
        rcases List.mem_cons.1 hg with rfl | hg
        · rfl
        · rcases List.mem_cons.1 hg with rfl | hg
          · rfl
          · cases hg) (by intro g hg; cases hg)

/-- C40, the limit of removal: function values made by the same function literal have the same code, so RemoveHook removes the
first of them whichever it is given. -/
theorem c40_same_code (ops : List Op) (key : String) (h h' : Hook) (hc : h.code = h'.code) (rest : List (Option Hook))
    (hl : hookLists ops key = some h :: rest) :
    let (x, s) := (HookSt.after (ops ++ [.remove key (some h')])).getHooks key
    s.elems x = rest := by
  have := c40_histories (ops ++ [.remove key (some h')]) key
  revert this
  cases (HookSt.after (ops ++ [.remove key (some h')])).getHooks key with
  | mk x s =>
    simp only
    intro this
    rw [this]
    unfold hookLists at hl ⊢
    rw [List.foldl_append]
    simp [HookLists.apply, hl, removeFirst, hc]

example : hookLists [.append "k" (some ⟨1, 1⟩) 0, .append "k" (some ⟨1, 2⟩) 0] "k" = some ⟨1, 1⟩ :: [some ⟨1, 2⟩] := by
  decide +kernel

end GoRaml
