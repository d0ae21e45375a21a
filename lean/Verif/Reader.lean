import Verif.Num
/-
Model of reading and printing: `tokenizer.go`, `parser.go` and `String` (`data.go:944-1061`).

Text is a list of Unicode characters (invalid UTF-8 is not modelled).  The tokenizer's two-character window
(`CurrentCh`, `NextCh`, `Eof`, `tokenizer.go:79-93`) is the list of characters not yet consumed: `CurrentCh` is its
head, `NextCh` its second element, `Eof` its emptiness.  The parser pulls tokens one at a time with one token of
lookahead; since the tokenizer depends on nothing but the text, the model reads all tokens first.
-/
namespace Golisp.Reader
open Data

/-- What the reader and printer take from Go's standard library and is not modelled: the Unicode tables above ASCII
(`unicode.IsSpace`, `IsNumber`, `IsGraphic`), decimal text to float32 and back.  Every theorem holds for all of
them. -/
structure Host where
  spaceHi : Char → Bool
  numberHi : Char → Bool
  graphicHi : Char → Bool
  /-- White space and number characters are disjoint (Unicode property `White_Space` and categories N*). -/
  spaceNotNumber : ∀ c, spaceHi c = true → numberHi c = false
  readFloat : List Char → Option (BitVec 32)
  showFloat : BitVec 32 → List Char
  /-- Text of functions, macros, primitives, ports, environments, boxed objects and frames (`data.go:1012-1057`). -/
  showRef : Atom → List Char

variable (H : Host)

/-- `unicode.IsSpace`: exact on ASCII. -/
def isSpace (c : Char) : Bool :=
  if c.toNat < 128 then c = ' ' || (9 ≤ c.toNat && c.toNat ≤ 13) else H.spaceHi c
/-- `unicode.IsNumber`: exact on ASCII. -/
def isNumber (c : Char) : Bool :=
  if c.toNat < 128 then (48 ≤ c.toNat && c.toNat ≤ 57) else H.numberHi c
/-- `unicode.IsGraphic`: exact on ASCII. -/
def isGraphic (c : Char) : Bool :=
  if c.toNat < 128 then (32 ≤ c.toNat && c.toNat ≤ 126) else H.graphicHi c

/-- The characters listed in `tokenizer.go:100`. -/
def delims : List Char := ['(', ')', ';', '"', '\'', '`', '|', '[', ']', '{', '}', '#', ',']

/-- `isSymbolCharacter` (`tokenizer.go:99-101`). -/
def isSymChar (c : Char) : Bool := isGraphic H c && !isSpace H c && !delims.contains c

/-- `isHexChar`, `isBinaryChar` (`tokenizer.go:112-130`). -/
def isHexChar (c : Char) : Bool :=
  ('0' ≤ c && c ≤ '9') || ('a' ≤ c && c ≤ 'f') || ('A' ≤ c && c ≤ 'F')
def isBinChar (c : Char) : Bool := c = '0' || c = '1'

/-- Tokens (`tokenizer.go:19-42`); `COMMENT` is `none` in `readToken`. -/
inductive Tok where
  | illegal
  | symbol (s : List Char) | number (s : List Char) | hex (s : List Char) | binary (s : List Char)
  | float (s : List Char) | str (s : List Char)
  | quote | backquote | comma | commaAt
  | lparen | rparen | lbracket | rbracket | lbrace | rbrace | period | tru | fls | eof
deriving DecidableEq, Repr

/-- Loop of `readNumber` (`tokenizer.go:162-193`): literal, rest, "saw a decimal point". -/
def numLoop (saw first : Bool) : List Char → List Char × List Char × Bool
  | [] => ([], [], saw)
  | c :: cs =>
    if c = '.' && !saw then
      let r := numLoop true false cs; (c :: r.1, r.2.1, r.2.2)
    else if (first && c = '-') || isNumber H c then
      let r := numLoop saw false cs; (c :: r.1, r.2.1, r.2.2)
    else ([], c :: cs, saw)

/-- `readNumber` (`tokenizer.go:162-193`). -/
def readNumber (cs : List Char) : Tok × List Char :=
  let r := numLoop H false true cs
  (if r.2.2 then .float r.1 else .number r.1, r.2.1)

/-- Loop of `readString` (`tokenizer.go:195-217`), after the opening quote: contents and rest, or none at the end of
the text. -/
def strLoop : List Char → Option (List Char × List Char)
  | [] => none
  | '"' :: cs => some ([], cs)
  | ['\\'] => none
  | '\\' :: c :: cs => (strLoop cs).map fun r => ((if c = 'n' then '\n' else c) :: r.1, r.2)
  | c :: cs => (strLoop cs).map fun r => (c :: r.1, r.2)

/-- Skipping of white space (`tokenizer.go:231-236`). -/
def skipSpace : List Char → List Char
  | [] => []
  | c :: cs => if isSpace H c then skipSpace cs else c :: cs

/-- The rest of a comment line (`tokenizer.go:302-311`): stops before the newline. -/
def skipComment : List Char → List Char
  | [] => []
  | c :: cs => if c = '\n' then c :: cs else skipComment cs

/-- `readNextToken` after white space (`tokenizer.go:238-315`) on `CurrentCh = c`; `none` is a comment. -/
def readHead (c : Char) (cs : List Char) : Option Tok × List Char :=
    if c = '0' && cs.head? = some 'x' then
      (some (.hex (cs.tail.takeWhile isHexChar)), cs.tail.dropWhile isHexChar)
    else if isNumber H c || (c = '-' && cs.head?.any (isNumber H)) then
      let r := readNumber H (c :: cs); (some r.1, r.2)
    else if c = '"' then
      (match strLoop cs with
       | none => (some .eof, [])
       | some (s, r) => (some (.str s), r))
    else if c = '\'' then (some .quote, cs)
    else if c = '`' then (some .backquote, cs)
    else if c = ',' && cs.head? = some '@' then (some .commaAt, cs.tail)
    else if c = ',' then (some .comma, cs)
    else if c = '(' then (some .lparen, cs)
    else if c = ')' then (some .rparen, cs)
    else if c = '[' then (some .lbracket, cs)
    else if c = ']' then (some .rbracket, cs)
    else if c = '{' then (some .lbrace, cs)
    else if c = '}' then (some .rbrace, cs)
    else if c = '.' && cs.head? = some ' ' then (some .period, cs)
    else if isSymChar H c then
      (some (.symbol (c :: cs.takeWhile (isSymChar H))), cs.dropWhile (isSymChar H))
    else if c = '#' then
      (match cs with
       | 't' :: r => (some .tru, r)
       | 'f' :: r => (some .fls, r)
       | 'x' :: r => (some (.hex (r.takeWhile isHexChar)), r.dropWhile isHexChar)
       | 'b' :: r => (some (.binary (r.takeWhile isBinChar)), r.dropWhile isBinChar)
       | r => (some .illegal, r))
    else if c = ';' then (none, skipComment cs)
    else (some .illegal, cs)

/-- `readNextToken` after white space (`tokenizer.go:228-230,234,238-315`). -/
def readToken1 : List Char → Option Tok × List Char
  | [] => (some .eof, [])
  | c :: cs => readHead H c cs

/-- `readNextToken` (`tokenizer.go:227-316`). -/
def readToken (cs : List Char) : Option Tok × List Char := readToken1 H (skipSpace H cs)

/-- All tokens, by repeated `ConsumeToken` (`tokenizer.go:318-323`, comments skipped), with a bound on the number of
calls; `C16_lex_total` shows the bound of `lex` is never reached. -/
def lexN : Nat → List Char → List Tok
  | 0, _ => [.eof]
  | n + 1, cs =>
    match readToken H cs with
    | (none, r) => lexN n r
    | (some .eof, _) => [.eof]
    | (some t, r) => t :: lexN n r

def lex (cs : List Char) : List Tok := lexN H (cs.length + 1) cs

/-- Result of `parseExpression`: `(sexpr, eof, err)` (`parser.go:199`), with the tokens left; `timeout` only when the
depth bound of the model is exhausted. -/
inductive PRes where
  | ok (d : Data) (rest : List Tok)
  | eof
  | err
  | timeout
deriving DecidableEq, Repr

/-- A frame literal `{ ]` (`parser.go:171-176`) is a fresh empty frame; reading has no store here, so it is shown as
an opaque object. -/
def emptyFrameLit : Data := .atom (.obj "frame" 0)

/-- `Intern(lit)` of `makeSymbol` (`parser.go:65-68`). -/
def mkSym (s : List Char) : Data := .sym (String.ofList s)

/-- `makeInteger`, `makeHexInteger`, `makeBinaryInteger` (`parser.go:20-48`). -/
def mkInt (b : Nat) (s : List Char) (rest : List Tok) : PRes :=
  match Prim.scanInt b s with
  | some n => .ok (.int (BitVec.ofInt 64 n)) rest
  | none => .err

/-- The reader macros (`parser.go:254-281`): the inner expression is wrapped unless it is missing. -/
def wrap (name : String) : PRes → PRes
  | .ok d rest => .ok (cons (.sym name) (cons d null)) rest
  | r => r

/-- `listToBytearray` (`parser.go:119-126`). -/
def toBytes (cells : List Data) : Data := .bytes (cells.map fun c => (intValue c).setWidth 8)

/-- The parser's four mutually recursive procedures. -/
structure Rec where
  expr : List Tok → PRes
  consLoop : List Tok → List Data → PRes
  bytesLoop : List Tok → List Data → PRes
  frameLoop : List Tok → List Data → PRes

/-- `parseExpression` (`parser.go:199-291`); `R` are the recursive calls. -/
def exprStep (R : Rec) : List Tok → PRes
  | [] => .eof
  | .eof :: _ => .eof
  | .number s :: r => mkInt 10 s r
  | .hex s :: r => mkInt 16 s r
  | .binary s :: r => mkInt 2 s r
  | .float s :: r => (match H.readFloat s with | some f => .ok (.flt f) r | none => .err)
  | .str s :: r => .ok (.str (String.ofList s)) r
  | .lparen :: r => R.consLoop r []
  | .lbracket :: r => R.bytesLoop r []
  | .lbrace :: r => if r.head? = some .rbracket then .ok emptyFrameLit r.tail else R.frameLoop r []
  | .symbol s :: r => .ok (mkSym s) r
  | .fls :: r => .ok (.bool false) r
  | .tru :: r => .ok (.bool true) r
  | .quote :: r => wrap "quote" (R.expr r)
  | .backquote :: r => wrap "quasiquote" (R.expr r)
  | .comma :: r => wrap "unquote" (R.expr r)
  | .commaAt :: r => wrap "unquote-splicing" (R.expr r)
  | .illegal :: _ => .err
  | .rparen :: r => .ok (.sym ")") r
  | .rbracket :: r => .ok (.sym "]") r
  | .rbrace :: r => .ok (.sym "}") r
  | .period :: r => .ok (.sym ".") r

/-- After a dotted tail (`parser.go:79-90`). -/
def closeDot (cells : List Data) : PRes → PRes
  | .ok d r => if r.head? = some .rparen then .ok (listWithTail cells d) r.tail else .err
  | x => x

/-- After an element (`parser.go:92-101,140-147,182-190`): the end of the text is an error. -/
def next (k : Data → List Tok → PRes) : PRes → PRes
  | .ok d r => k d r
  | .eof => .err
  | x => x

/-- Loop of `parseConsCell` (`parser.go:70-108`). -/
def consStep (R : Rec) (ts : List Tok) (cells : List Data) : PRes :=
  if ts.head? = some .rparen then .ok (ofArray cells) ts.tail
  else if ts.head? = some .period then closeDot cells (R.expr ts.tail)
  else next (fun d r => R.consLoop r (cells ++ [d])) (R.expr ts)

/-- `parseBytearray` (`parser.go:128-167`). -/
def bytesStep (R : Rec) (ts : List Tok) (cells : List Data) : PRes :=
  if ts.head? = some .rbracket then
    .ok (if cells.all isInt then toBytes cells
         else ofArray [.sym "list->bytearray", cons (.sym "list") (ofArray cells)]) ts.tail
  else next (fun d r =>
      if isInt d && (255 : Int) < (intValue d).toInt then .err
      else if !isInt d && !isSym d && !isListP d then .err
      else R.bytesLoop r (cells ++ [d])) (R.expr ts)

/-- `parseFrame` (`parser.go:169-197`); the test for an empty frame looks for `]` (line 171, see `exprStep`). -/
def frameStep (R : Rec) (ts : List Tok) (cells : List Data) : PRes :=
  if ts.head? = some .rbrace then .ok (cons (.sym "make-frame") (ofArray cells)) ts.tail
  else next (fun d r => R.frameLoop r (cells ++ [d])) (R.expr ts)

/-- The parser with recursion depth at most `n`. -/
def recN : Nat → Rec
  | 0 => ⟨fun _ => .timeout, fun _ _ => .timeout, fun _ _ => .timeout, fun _ _ => .timeout⟩
  | n + 1 => ⟨exprStep H (recN n), consStep (recN n), bytesStep (recN n), frameStep (recN n)⟩

/-- `parseExpression` with a bound that is never reached (`C16_parse_total`). -/
def parseExpr (ts : List Tok) : PRes := (recN H (2 * ts.length + 1)).expr ts

/-- `Parse` (`parser.go:293-297`): nil for an empty text. -/
def parse (src : List Char) : Option Data :=
  match parseExpr H (lex H src) with
  | .ok d _ => some d
  | .eof => some null
  | _ => none

/-- `ParseAll` (`parser.go:299-311`): the forms before the end of the text, and whether there was an error. -/
def parseAllN : Nat → List Tok → List Data × Bool
  | 0, _ => ([], true)
  | n + 1, ts =>
    match parseExpr H ts with
    | .ok d r => let x := parseAllN n r; (d :: x.1, x.2)
    | .eof => ([], false)
    | .err => ([], true)
    | .timeout => ([], true)

def parseAll (src : List Char) : List Data × Bool :=
  let ts := lex H src
  parseAllN H (ts.length + 1) ts

/-! ### Printing -/

/-- `strings.Join(parts, " ")`. -/
def joinSp : List (List Char) → List Char
  | [] => []
  | [x] => x
  | x :: xs => x ++ ' ' :: joinSp xs

/-- `escapeQuotes` (`data.go:933-942`). -/
def escapeQuotes : List Char → List Char
  | [] => []
  | c :: cs => if c = '"' then '\\' :: c :: escapeQuotes cs else c :: escapeQuotes cs

/-- Text of an atom (`data.go:984-1057`). -/
def atomText : Atom → List Char
  | .int n => Prim.formatInt 10 n.toInt
  | .flt f => H.showFloat f
  | .bool b => if b then ['#', 't'] else ['#', 'f']
  | .str s => '"' :: escapeQuotes s.toList ++ ['"']
  | .sym s => s.toList
  | .bytes bs => '[' :: joinSp (bs.map fun b => Prim.formatInt 10 b.toNat) ++ [']']
  | a => H.showRef a

/-- Everything the loops of `String` need about a value: its own text, the texts `contents` of a cons chain
(`data.go:957-960`) with the text of a dotted tail, and the texts of an association list's elements
(`data.go:979-981`). -/
structure Printed where
  text : List Char
  parts : List (List Char)
  tail : Option (List Char)
  all : List (List Char)

/-- The cons-cell case after the loop (`data.go:961-972`). -/
def consText (car : Data) (parts : List (List Char)) (tail : Option (List Char)) : List Char :=
  match tail with
  | none =>
    if car = .sym "quote" then
      (match parts with
       | _ :: p :: _ => '\'' :: p
       | _ => ['\'', '(', ')'])
    else '(' :: joinSp parts ++ [')']
  | some t => '(' :: joinSp parts ++ [' ', '.', ' '] ++ t ++ [')']

/-- `String` (`data.go:944-1061`). -/
def pr : Data → Printed
  | null => ⟨['(', ')'], [], none, []⟩
  | atom a => ⟨atomText H a, [], some (atomText H a), [['(', ')']]⟩
  | cell k a d =>
    let A := pr a
    let D := pr d
    let all := if isNil (cell k a d) then [] else A.text :: D.all
    match k with
    | .cons =>
      if isNil (cell k a d) then ⟨['(', ')'], [], none, []⟩
      else ⟨consText a (A.text :: D.parts) D.tail, A.text :: D.parts, D.tail, all⟩
    | .alist =>
      if isNil (cell k a d) then ⟨['(', ')'], [], none, []⟩
      else let t := '(' :: joinSp all ++ [')']; ⟨t, [], some t, all⟩
    | .acell =>
      let t := '(' :: A.text ++ [' ', '.', ' '] ++ D.text ++ [')']
      ⟨t, [], if isNil (cell k a d) then none else some t, all⟩

def print (d : Data) : List Char := (pr H d).text

end Golisp.Reader
