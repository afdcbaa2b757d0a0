import Verif.Model.Go

/-!
# The lexer and parser of type expressions (rdt/rdtLexer.g4, rdt/rdtParser.g4, resolve.go:175-190)

The Go code is generated from the two grammars by ANTLR.  The lexer takes the longest match, on a tie the rule listed first.  Blanks go
to a hidden channel, which the parser does not see (so `WS*` in the parser grammar never matches a token).  Any lexer or parser error is
recorded by the listener and resolution fails (resolve.go:186-190), so error recovery does not matter: errors are `none`.

Simplification: the generated parser decides between alternatives by ANTLR's adaptive prediction (simulating the grammar over
the remaining tokens).  The model decides with the next token after the common prefix.  Theorem `c32_parser_exact` shows that
this accepts exactly the grammar, and `c32_unambiguous` that the prediction has no choice.
-/

namespace GoRaml

/-- rdt/rdtLexer.g4:12-25, rdt/rdtParser.g4:13-27: the type keywords. -/
inductive Prim where
  | string | integer | number | boolean | datetime | timeOnly | datetimeOnly | dateOnly | file | nil | any | array | object | union
  deriving DecidableEq, Repr

/-- The text of a keyword (rdt/rdtLexer.g4:12-25). -/
def Prim.text : Prim → String
  | .string => "string"
  | .integer => "integer"
  | .number => "number"
  | .boolean => "boolean"
  | .datetime => "datetime"
  | .timeOnly => "time-only"
  | .datetimeOnly => "datetime-only"
  | .dateOnly => "date-only"
  | .file => "file"
  | .nil => "nil"
  | .any => "any"
  | .array => "array"
  | .object => "object"
  | .union => "union"

/-- All keywords, in the order of the lexer grammar. -/
def Prim.all : List Prim :=
  [.string, .integer, .number, .boolean, .datetime, .timeOnly, .datetimeOnly, .dateOnly, .file, .nil, .any, .array, .object, .union]

/-- The tokens on the default channel. -/
inductive Tok where
  | lparen | rparen | pipe | arrayNotation | optionalNotation | dot
  | prim (p : Prim)
  | ident (s : String)
  deriving DecidableEq, Repr

/-- rdt/rdtLexer.g4:28: the characters of IDENTIFIER. -/
def isIdentChar (c : Char) : Bool :=
  ('0' ≤ c && c ≤ '9') || ('a' ≤ c && c ≤ 'z') || ('A' ≤ c && c ≤ 'Z') || c == '_' || c == '-' || c == '.'

/-- The token for a maximal run of identifier characters: DOT, a keyword or IDENTIFIER, by the order of the rules. -/
def wordToken (w : List Char) : Tok :=
  if w = ['.'] then .dot
  else match Prim.all.find? (fun p => decide (p.text.toList = w)) with
    | some p => .prim p
    | none => .ident (String.ofList w)

/-- The rest after `]`, if the text starts with it. -/
def closeBracket : List Char → Option (List Char)
  | [] => none
  | c :: s => if c = ']' then some s else none

/-- rdt/rdtLexer.g4: the tokens of a text, blanks left out; `none` for a token recognition error.  `n` bounds the number of tokens. -/
def lex : Nat → List Char → Option (List Tok)
  | 0, s => if s = [] then some [] else none
  | _ + 1, [] => some []
  | n + 1, c :: s =>
    if c = ' ' ∨ c = '\t' then lex n s
    else if c = '(' then (lex n s).map (.lparen :: ·)
    else if c = ')' then (lex n s).map (.rparen :: ·)
    else if c = '|' then (lex n s).map (.pipe :: ·)
    else if c = '?' then (lex n s).map (.optionalNotation :: ·)
    else if c = '[' then
      match closeBracket s with
      | some s' => (lex n s').map (.arrayNotation :: ·)
      | none => none
    else if isIdentChar c then
      (lex n (s.dropWhile isIdentChar)).map (wordToken (c :: s.takeWhile isIdentChar) :: ·)
    else none

/-- The tokens of a text. -/
def tokenize (s : List Char) : Option (List Tok) := lex s.length s

/-- Parse trees of type expressions.  `union a b` is `a | b` where `b` is the rest of the members: a type, or again a union (the
flat list of members in the ANTLR tree is the spine).  The chains `expression → type → …` are left out. -/
inductive Rdt where
  | prim (p : Prim)
  | ref (a : String) (b : Option String)
  | group (e : Rdt)
  | array (e : Rdt)
  | optional (e : Rdt)
  | union (a b : Rdt)
  deriving DecidableEq, Repr

/-- rdt/rdtParser.g4:11, 35-37: primitive, group or reference, given the parser of expressions. -/
def atomStep (expr : List Tok → Option (Rdt × List Tok)) : List Tok → Option (Rdt × List Tok)
  | .prim p :: ts => some (.prim p, ts)
  | .ident a :: .dot :: .ident b :: ts => some (.ref a (some b), ts)
  | .ident a :: ts => some (.ref a none, ts)
  | .lparen :: ts =>
    match expr ts with
    | some (e, .rparen :: ts) => some (.group e, ts)
    | _ => none
  | _ => none

/-- rdt/rdtParser.g4:11, 29-31: after a primitive, group or reference: array, optional or nothing. -/
def typeStep : Option (Rdt × List Tok) → Option (Rdt × List Tok)
  | some (e, .arrayNotation :: ts) => some (.array e, ts)
  | some (e, .optionalNotation :: ts) => some (.optional e, ts)
  | r => r

/-- rdt/rdtParser.g4:9, 33: after a type: the rest of a union or nothing. -/
def exprStep (expr : List Tok → Option (Rdt × List Tok)) : Option (Rdt × List Tok) → Option (Rdt × List Tok)
  | some (a, .pipe :: ts) =>
    match expr ts with
    | some (b, ts) => some (.union a b, ts)
    | none => none
  | r => r

/-- rdt/rdtParser.g4:9: an expression at the start of the tokens, and the remaining tokens.  `n` bounds the nesting of calls. -/
def parseExpr : Nat → List Tok → Option (Rdt × List Tok)
  | 0, _ => none
  | n + 1, ts => exprStep (parseExpr n) (typeStep (atomStep (parseExpr n) ts))

/-- rdt/rdtParser.g4:7 `entrypoint`: an expression, then the end. -/
def parseTokens (ts : List Tok) : Option Rdt :=
  match parseExpr (ts.length + 1) ts with
  | some (e, []) => some e
  | _ => none

/-- resolve.go:175-190: lexer and parser. -/
def parseTypeExpression (s : String) : Option Rdt := (tokenize s.toList).bind parseTokens

end GoRaml
