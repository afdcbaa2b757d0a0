import Verif.Spec.Rdt
import Mathlib.Tactic.Common

/-!
# Lemmas on type expressions (C32)
-/

namespace GoRaml

open Spec

/-! ## The parser -/

/-- A parser returns derivations only. -/
def ParsesOnly (nt : Nonterminal) (p : List Tok → Option (Rdt × List Tok)) : Prop :=
  ∀ ts t rest, p ts = some (t, rest) → ∃ l, ts = l ++ rest ∧ Derives nt t l

theorem atomStep_sound {expr} (he : ParsesOnly .expression expr) : ParsesOnly .atom (atomStep expr) := by
  intro ts t rest h
  unfold atomStep at h
  split at h
  · cases h; exact ⟨_, rfl, .primitive _⟩
  · cases h; exact ⟨[_, _, _], rfl, .qualified _ _⟩
  · cases h; exact ⟨[_], rfl, .reference _⟩
  · split at h
    · rename_i he'
      cases h
      obtain ⟨l, hl, hd⟩ := he _ _ _ he'
      exact ⟨_, by rw [hl]; simp, .group hd⟩
    · cases h
  · cases h

theorem typeStep_sound {atom} (ha : ParsesOnly .atom atom) : ParsesOnly .type (fun ts => typeStep (atom ts)) := by
  intro ts t rest h
  simp only [typeStep] at h
  split at h
  · rename_i he
    cases h
    obtain ⟨l, hl, hd⟩ := ha _ _ _ he
    exact ⟨_, by rw [hl]; simp, .array hd⟩
  · rename_i he
    cases h
    obtain ⟨l, hl, hd⟩ := ha _ _ _ he
    exact ⟨_, by rw [hl]; simp, .optional hd⟩
  · obtain ⟨l, hl, hd⟩ := ha _ _ _ h
    exact ⟨l, hl, .atom hd⟩

theorem exprStep_sound {expr type} (he : ParsesOnly .expression expr) (ht : ParsesOnly .type type) :
    ParsesOnly .expression (fun ts => exprStep expr (type ts)) := by
  intro ts t rest h
  simp only [exprStep] at h
  split at h
  · rename_i he'
    obtain ⟨l, hl, hd⟩ := ht _ _ _ he'
    split at h
    · rename_i he2
      cases h
      obtain ⟨m, hm, hd'⟩ := he _ _ _ he2
      exact ⟨_, by rw [hl, hm]; simp, .union hd hd'⟩
    · cases h
  · obtain ⟨l, hl, hd⟩ := ht _ _ _ h
    exact ⟨l, hl, .type hd⟩

theorem parse_sound (n : Nat) : ParsesOnly .expression (parseExpr n) := by
  induction n with
  | zero => intro ts t rest h; simp [parseExpr] at h
  | succ n ih => exact exprStep_sound ih (typeStep_sound (atomStep_sound ih))

/-- What cannot follow. -/
def Follow : Nonterminal → List Tok → Prop
  | .atom, ts => ts.head? ≠ some .dot
  | .type, ts => ts.head? ≠ some .dot ∧ ts.head? ≠ some .arrayNotation ∧ ts.head? ≠ some .optionalNotation
  | .expression, ts => ts.head? ≠ some .dot ∧ ts.head? ≠ some .arrayNotation ∧ ts.head? ≠ some .optionalNotation ∧
      ts.head? ≠ some .pipe

/-- The parser of a nonterminal. -/
def parserOf (n : Nat) : Nonterminal → List Tok → Option (Rdt × List Tok)
  | .atom => atomStep (parseExpr n)
  | .type => fun ts => typeStep (atomStep (parseExpr n) ts)
  | .expression => parseExpr (n + 1)

theorem derives_ne_nil {nt : Nonterminal} {t : Rdt} {l : List Tok} (d : Derives nt t l) : 1 ≤ l.length := by
  induction d <;> simp_all <;> omega

theorem parse_complete {nt : Nonterminal} {t : Rdt} {l : List Tok} (d : Derives nt t l) : ∀ n rest, l.length ≤ n →
    Follow nt rest → parserOf n nt (l ++ rest) = some (t, rest) := by
  induction d with
  | primitive p => intro n rest _ _; simp [parserOf, atomStep]
  | reference a =>
    intro n rest _ hf
    simp only [parserOf, List.cons_append, List.nil_append]
    cases rest with
    | nil => rfl
    | cons x rest => cases x <;> first | rfl | exact absurd rfl hf
  | qualified a b => intro n rest _ _; simp [parserOf, atomStep]
  | @group e l _ ih =>
    intro n rest hn _
    simp only [List.length_cons, List.length_append, List.length_nil] at hn
    obtain ⟨n, rfl⟩ : ∃ k, n = k + 1 := ⟨n - 1, by omega⟩
    have := ih n (.rparen :: rest) (by omega) (by simp [Follow])
    simp only [parserOf] at this ⊢
    simp only [List.cons_append, List.append_assoc, List.nil_append, atomStep, this]
  | @atom e l _ ih =>
    intro n rest hn hf
    have := ih n rest hn hf.1
    simp only [parserOf] at this ⊢
    rw [this]
    cases rest with
    | nil => rfl
    | cons x rest =>
      obtain ⟨_, h2, h3⟩ := hf
      cases x <;> first | rfl | exact absurd rfl h2 | exact absurd rfl h3
  | @array e l _ ih =>
    intro n rest hn _
    simp only [List.length_append, List.length_singleton] at hn
    have := ih n (.arrayNotation :: rest) (by omega) (by simp [Follow])
    simp only [parserOf] at this ⊢
    rw [List.append_assoc, List.singleton_append, this]
    rfl
  | @optional e l _ ih =>
    intro n rest hn _
    simp only [List.length_append, List.length_singleton] at hn
    have := ih n (.optionalNotation :: rest) (by omega) (by simp [Follow])
    simp only [parserOf] at this ⊢
    rw [List.append_assoc, List.singleton_append, this]
    rfl
  | @type e l _ ih =>
    intro n rest hn hf
    have := ih n rest hn ⟨hf.1, hf.2.1, hf.2.2.1⟩
    simp only [parserOf] at this ⊢
    rw [parseExpr, this]
    cases rest with
    | nil => rfl
    | cons x rest =>
      obtain ⟨_, _, _, h4⟩ := hf
      cases x <;> first | rfl | exact absurd rfl h4
  | @union a b l m da _ iha ihb =>
    intro n rest hn hf
    simp only [List.length_append, List.length_cons] at hn
    have := derives_ne_nil da
    have h1 := iha n (.pipe :: (m ++ rest)) (by omega) (by simp [Follow])
    obtain ⟨n, rfl⟩ : ∃ k, n = k + 1 := ⟨n - 1, by omega⟩
    have h2 := ihb n rest (by omega) hf
    simp only [parserOf] at h1 h2 ⊢
    rw [parseExpr, List.append_assoc, List.cons_append, h1]
    simp only [exprStep, h2]

/-! ## The lexer -/

theorem lex_mono {n : Nat} {s : List Char} (h : s.length ≤ n) : lex n s = lex s.length s := by
  suffices key : ∀ k, ∀ s : List Char, s.length ≤ k → ∀ n m, s.length ≤ n → s.length ≤ m → lex n s = lex m s from
    key s.length s (Nat.le_refl _) n s.length h (Nat.le_refl _)
  intro k
  induction k with
  | zero =>
    intro s hs n m _ _
    have : s = [] := List.eq_nil_of_length_eq_zero (by omega)
    subst this
    cases n <;> cases m <;> rfl
  | succ k ih =>
    intro s hs n m hn hm
    cases s with
    | nil => cases n <;> cases m <;> rfl
    | cons c s =>
      simp only [List.length_cons] at hs hn hm
      obtain ⟨n, rfl⟩ : ∃ k, n = k + 1 := ⟨n - 1, by omega⟩
      obtain ⟨m, rfl⟩ : ∃ k, m = k + 1 := ⟨m - 1, by omega⟩
      have e1 := ih s (by omega) n m (by omega) (by omega)
      have hd : (s.dropWhile isIdentChar).length ≤ s.length := (List.dropWhile_sublist _).length_le
      have e2 := ih (s.dropWhile isIdentChar) (by omega) n m (by omega) (by omega)
      simp only [lex, e1, e2]
      have e3 : ∀ s', closeBracket s = some s' → lex n s' = lex m s' := by
        intro s' hs'
        cases s with
        | nil => simp [closeBracket] at hs'
        | cons d s =>
          simp only [closeBracket] at hs'
          split at hs'
          · cases hs'
            simp only [List.length_cons] at hs hn hm
            exact ih s' (by omega) n m (by omega) (by omega)
          · cases hs'
      cases hc : closeBracket s with
      | none => rfl
      | some s' => simp only [e3 s' hc]

theorem tokenize_nil : tokenize [] = some [] := rfl

theorem tokenize_blank {c : Char} (s : List Char) (h : c = ' ' ∨ c = '\t') : tokenize (c :: s) = tokenize s := by
  unfold tokenize
  rw [List.length_cons, lex, if_pos h]

theorem tokenize_lparen (s : List Char) : tokenize ('(' :: s) = (tokenize s).map (.lparen :: ·) := by
  unfold tokenize; rw [List.length_cons, lex]; rfl

theorem tokenize_rparen (s : List Char) : tokenize (')' :: s) = (tokenize s).map (.rparen :: ·) := by
  unfold tokenize; rw [List.length_cons, lex]; rfl

theorem tokenize_pipe (s : List Char) : tokenize ('|' :: s) = (tokenize s).map (.pipe :: ·) := by
  unfold tokenize; rw [List.length_cons, lex]; rfl

theorem tokenize_opt (s : List Char) : tokenize ('?' :: s) = (tokenize s).map (.optionalNotation :: ·) := by
  unfold tokenize; rw [List.length_cons, lex]; rfl

theorem tokenize_arr (s : List Char) : tokenize ('[' :: ']' :: s) = (tokenize s).map (.arrayNotation :: ·) := by
  unfold tokenize
  rw [List.length_cons, lex]
  rw [← lex_mono (n := s.length + 1) (s := s) (by omega)]
  rfl

theorem isIdentChar_special {c : Char} (h : isIdentChar c = true) :
    ¬(c = ' ' ∨ c = '\t') ∧ c ≠ '(' ∧ c ≠ ')' ∧ c ≠ '|' ∧ c ≠ '?' ∧ c ≠ '[' := by
  refine ⟨?_, ?_, ?_, ?_, ?_, ?_⟩
  · rintro (rfl | rfl) <;> simp [isIdentChar] at h <;> revert h <;> decide
  all_goals rintro rfl; revert h; decide

theorem takeWhile_word {w s : List Char} (hw : ∀ c ∈ w, isIdentChar c = true) (hs : ∀ c, s.head? = some c → isIdentChar c = false) :
    (w ++ s).takeWhile isIdentChar = w ∧ (w ++ s).dropWhile isIdentChar = s := by
  induction w with
  | nil =>
    cases s with
    | nil => exact ⟨rfl, rfl⟩
    | cons c s =>
      have := hs c rfl
      simp [this]
  | cons c w ih =>
    obtain ⟨h1, h2⟩ := ih (fun d hd => hw d (List.mem_cons_of_mem _ hd))
    have hc := hw c (List.mem_cons_self ..)
    simp only [List.cons_append, List.takeWhile_cons, List.dropWhile_cons, hc, if_true, h1, h2]
    exact ⟨trivial, trivial⟩

theorem tokenize_word {w s : List Char} (hne : w ≠ []) (hw : ∀ c ∈ w, isIdentChar c = true)
    (hs : ∀ c, s.head? = some c → isIdentChar c = false) :
    tokenize (w ++ s) = (tokenize s).map (wordToken w :: ·) := by
  cases w with
  | nil => exact absurd rfl hne
  | cons c w =>
    have hc := hw c (List.mem_cons_self ..)
    obtain ⟨h0, h1, h2, h3, h4, h5⟩ := isIdentChar_special hc
    obtain ⟨ht, hd⟩ := takeWhile_word (fun d hd => hw d (List.mem_cons_of_mem _ hd)) hs
    unfold tokenize
    rw [List.cons_append, List.length_cons, lex, if_neg h0, if_neg h1, if_neg h2, if_neg h3, if_neg h4, if_neg h5, if_pos hc, ht, hd,
      lex_mono (n := (w ++ s).length) (s := s) (by simp)]

theorem prim_text_ident (p : Prim) : p.text.toList ≠ [] ∧ (∀ c ∈ p.text.toList, isIdentChar c = true) ∧ wordToken p.text.toList = .prim p := by
  cases p <;> decide +kernel

theorem wordToken_name {s : String} (h : IsName s) : wordToken s.toList = .ident s := by
  obtain ⟨_, h2, _, h4⟩ := h
  unfold wordToken
  have hdot : s.toList ≠ ['.'] := fun he => h2 (String.toList_inj.1 he)
  rw [if_neg hdot]
  have : Prim.all.find? (fun p => decide (p.text.toList = s.toList)) = none := by
    rw [List.find?_eq_none]
    intro p _ hp
    exact h4 p (String.toList_inj.1 (of_decide_eq_true hp)).symm
  rw [this]
  simp [String.ofList_toList]

theorem name_chars {s : String} (h : IsName s) : s.toList ≠ [] ∧ ∀ c ∈ s.toList, isIdentChar c = true :=
  ⟨fun he => h.1 (String.toList_inj.1 he), h.2.2.1⟩

/-- The tokens of a tree. -/
def tokensOf : Rdt → List Tok
  | .prim p => [.prim p]
  | .ref a none => [.ident a]
  | .ref a (some b) => [.ident a, .dot, .ident b]
  | .group e => .lparen :: tokensOf e ++ [.rparen]
  | .array e => tokensOf e ++ [.arrayNotation]
  | .optional e => tokensOf e ++ [.optionalNotation]
  | .union a b => tokensOf a ++ .pipe :: tokensOf b

theorem derives_tokensOf {nt : Nonterminal} {t : Rdt} (h : IsTree nt t) : Derives nt t (tokensOf t) := by
  induction h with
  | prim p => exact .primitive p
  | ref a b => cases b <;> simp only [tokensOf] <;> constructor
  | group _ ih => exact .group ih
  | atom _ ih => exact .atom ih
  | array _ ih => exact .array ih
  | optional _ ih => exact .optional ih
  | type _ ih => exact .type ih
  | union _ _ ia ib => exact .union ia ib

theorem tokenize_show (t : Rdt) : Named t → ∀ s : List Char, (∀ c, s.head? = some c → isIdentChar c = false) →
    tokenize ((show_ t).toList ++ s) = (tokenize s).map (tokensOf t ++ ·) := by
  induction t with
  | prim p =>
    intro _ s hs
    obtain ⟨h1, h2, h3⟩ := prim_text_ident p
    rw [show_, tokenize_word h1 h2 hs, h3]
    rfl
  | ref a b =>
    intro hn s hs
    cases b with
    | none =>
      rw [show_, tokenize_word (name_chars hn).1 (name_chars hn).2 hs, wordToken_name hn]
      rfl
    | some b =>
      obtain ⟨ha, hb⟩ := hn
      have e : (show_ (.ref a (some b))).toList ++ s = a.toList ++ (' ' :: ('.' :: (' ' :: (b.toList ++ s)))) := by
        simp [show_, String.toList_append]
      rw [e, tokenize_word (name_chars ha).1 (name_chars ha).2 (by intro c hc; cases hc; decide), tokenize_blank _ (.inl rfl),
        show ('.' :: (' ' :: (b.toList ++ s))) = ['.'] ++ (' ' :: (b.toList ++ s)) from rfl,
        tokenize_word (by simp) (by decide) (by intro c hc; cases hc; decide), tokenize_blank _ (.inl rfl),
        tokenize_word (name_chars hb).1 (name_chars hb).2 hs, wordToken_name ha, wordToken_name hb]
      cases tokenize s <;> rfl
  | group e ih =>
    intro hn s hs
    have e' : (show_ (.group e)).toList ++ s = '(' :: ((show_ e).toList ++ (')' :: s)) := by simp [show_, String.toList_append]
    rw [e', tokenize_lparen, ih hn _ (by intro c hc; cases hc; decide), tokenize_rparen]
    cases tokenize s <;> simp [tokensOf]
  | array e ih =>
    intro hn s hs
    have e' : (show_ (.array e)).toList ++ s = (show_ e).toList ++ ('[' :: ']' :: s) := by simp [show_, String.toList_append]
    rw [e', ih hn _ (by intro c hc; cases hc; decide), tokenize_arr]
    cases tokenize s <;> simp [tokensOf]
  | optional e ih =>
    intro hn s hs
    have e' : (show_ (.optional e)).toList ++ s = (show_ e).toList ++ ('?' :: s) := by simp [show_, String.toList_append]
    rw [e', ih hn _ (by intro c hc; cases hc; decide), tokenize_opt]
    cases tokenize s <;> simp [tokensOf]
  | union a b iha ihb =>
    intro hn s hs
    have e' : (show_ (.union a b)).toList ++ s = (show_ a).toList ++ (' ' :: '|' :: ' ' :: ((show_ b).toList ++ s)) := by
      simp [show_, String.toList_append]
    rw [e', iha hn.1 _ (by intro c hc; cases hc; decide), tokenize_blank _ (.inl rfl), tokenize_pipe, tokenize_blank _ (.inl rfl),
      ihb hn.2 _ hs]
    cases tokenize s <;> simp [tokensOf]

/-- A blank separates. -/
theorem tokenize_split (t : List Char) (k : Nat) : ∀ s : List Char, s.length ≤ k →
    tokenize (s ++ ' ' :: t) = (tokenize s).bind fun a => (tokenize t).map (a ++ ·) := by
  induction k with
  | zero =>
    intro s hs
    have : s = [] := List.eq_nil_of_length_eq_zero (by omega)
    subst this
    rw [List.nil_append, tokenize_blank _ (.inl rfl), tokenize_nil]
    cases tokenize t <;> rfl
  | succ k ih =>
    intro s hs
    cases s with
    | nil =>
      rw [List.nil_append, tokenize_blank _ (.inl rfl), tokenize_nil]
      cases tokenize t <;> rfl
    | cons c s =>
      simp only [List.length_cons] at hs
      have ihs := ih s (by omega)
      have fin : ∀ (x : Tok), (Option.map (x :: ·) (tokenize (s ++ ' ' :: t))) =
          (Option.map (x :: ·) (tokenize s)).bind fun a => (tokenize t).map (a ++ ·) := by
        intro x; rw [ihs]; cases tokenize s <;> cases tokenize t <;> rfl
      rw [List.cons_append]
      by_cases h0 : c = ' ' ∨ c = '\t'
      · rw [tokenize_blank _ h0, tokenize_blank _ h0, ihs]
      by_cases h1 : c = '('
      · subst h1; rw [tokenize_lparen, tokenize_lparen, fin]
      by_cases h2 : c = ')'
      · subst h2; rw [tokenize_rparen, tokenize_rparen, fin]
      by_cases h3 : c = '|'
      · subst h3; rw [tokenize_pipe, tokenize_pipe, fin]
      by_cases h4 : c = '?'
      · subst h4; rw [tokenize_opt, tokenize_opt, fin]
      by_cases h5 : c = '['
      · subst h5
        have bad : ∀ u : List Char, (∀ v, u ≠ ']' :: v) → tokenize ('[' :: u) = none := by
          intro u hu
          unfold tokenize
          rw [List.length_cons, lex, if_neg (by decide), if_neg (by decide), if_neg (by decide), if_neg (by decide), if_neg (by decide),
            if_pos rfl]
          cases u with
          | nil => rfl
          | cons d v =>
            have : d ≠ ']' := fun h => hu v (by rw [h])
            simp only [closeBracket, if_neg this]
        cases s with
        | nil => rw [bad _ (by intro v hv; cases hv), bad _ (by intro v hv; cases hv)]; rfl
        | cons d s =>
          by_cases hd : d = ']'
          · subst hd
            rw [List.cons_append, tokenize_arr, tokenize_arr, ih s (by simp only [List.length_cons] at hs; omega)]
            cases tokenize s <;> cases tokenize t <;> rfl
          · rw [bad _ (by intro v hv; rw [List.cons_append] at hv; cases hv; exact hd rfl), bad _ (by intro v hv; cases hv; exact hd rfl)]
            rfl
      by_cases h6 : isIdentChar c = true
      · have hsplit : c :: s = (c :: s.takeWhile isIdentChar) ++ s.dropWhile isIdentChar := by
          rw [List.cons_append, List.takeWhile_append_dropWhile]
        have hw : ∀ d ∈ c :: s.takeWhile isIdentChar, isIdentChar d = true := by
          intro d hd
          rcases List.mem_cons.1 hd with rfl | hd
          · exact h6
          · exact List.all_eq_true.1 List.all_takeWhile d hd
        have hd1 : ∀ d, (s.dropWhile isIdentChar).head? = some d → isIdentChar d = false := by
          intro d hd
          have := List.head?_dropWhile_not isIdentChar s
          rw [hd] at this
          simpa using this
        have hd2 : ∀ d, (s.dropWhile isIdentChar ++ ' ' :: t).head? = some d → isIdentChar d = false := by
          intro d hd
          cases hs' : s.dropWhile isIdentChar with
          | nil => rw [hs'] at hd; cases hd; decide
          | cons e l => rw [hs'] at hd; cases hd; exact hd1 d (by rw [hs']; rfl)
        have hl : (s.dropWhile isIdentChar).length ≤ s.length := (List.dropWhile_sublist _).length_le
        rw [← List.cons_append, hsplit, List.append_assoc, tokenize_word (by simp) hw hd2, tokenize_word (by simp) hw hd1,
          ih _ (by omega)]
        cases tokenize (s.dropWhile isIdentChar) <;> cases tokenize t <;> rfl
      · have bad : ∀ u : List Char, tokenize (c :: u) = none := by
          intro u
          unfold tokenize
          rw [List.length_cons, lex, if_neg h0, if_neg h1, if_neg h2, if_neg h3, if_neg h4, if_neg h5, if_neg h6]
        rw [bad, bad]
        rfl

end GoRaml
