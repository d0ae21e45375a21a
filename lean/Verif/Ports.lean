import Verif.Reader
/-
File ports (`prim_io.go`): opening, closing, writing, reading.

Simplifications: a path names one file; files hold characters (the code works on UTF-8 bytes), so positions count characters;
the operating system refuses to open some files (`Host.refuses`) but never fails in the middle of a transfer; standard output
is a text that grows; `write-bytes`, `list-directory` and reading from standard input are left out; values are
printed by `Reader.print`, which needs no store (frames and functions print as in that model).  The outcome of reading a port
that is closed or was opened for output is not modelled (it is shown as an error).
-/
namespace Golisp.Ports
open Data Reader

/-- What the operating system and the buffering reader decide. -/
structure Host where
  reader : Reader.Host
  /-- Files that cannot be opened for writing. -/
  refuses : String → Bool
  /-- How far past the characters asked for the buffer is filled from the file, given how many were asked for in all
  (`bufrr.Reader` reads blocks). -/
  ahead : Nat → Nat
  /-- How many tokens a failing `parseExpression` has consumed. -/
  skipped : List Tok → Nat

variable (H : Host)

/-- How a file was opened. -/
inductive Mode where
  | input | output | append
deriving DecidableEq, Repr

/-- `*os.File`: what it was opened on, how, the position, and whether it has been closed. -/
structure File where
  path : String
  mode : Mode
  pos : Nat
  closed : Bool
deriving DecidableEq, Repr

/-- `Tokenizer` (`tokenizer.go:44-52`): the lookahead token and the characters that were fetched from the file but not
used. -/
structure Tokenizer where
  look : Tok
  buf : List Char
deriving DecidableEq, Repr

/-- The files by path, the `*os.File`s made so far, standard output, and `mostRecentlyUsedFile` with
`mostRecentFileTokenizer` (`tokenizer.go:54-55`). -/
structure World where
  disk : String → Option (List Char)
  files : List File
  out : List Char
  recent : Option (Nat × Tokenizer)

/-- `ConsumeToken` (`tokenizer.go:318-323`): the next token that is not a comment, and the characters after it. -/
def nextN : Nat → List Char → Tok × List Char
  | 0, cs => (.eof, cs)
  | n + 1, cs =>
    match readToken H.reader cs with
    | (none, r) => nextN n r
    | (some t, r) => (t, r)
def next (cs : List Char) : Tok × List Char := nextN H (cs.length + 1) cs

/-- The characters that a tokenizer with buffer `buf` on a file at `pos` can still get. -/
def pending (text : List Char) (buf : List Char) (pos : Nat) : List Char := buf ++ text.drop pos

/-- `ConsumeToken` on a file (`tokenizer.go:79-93,318-323`): the new tokenizer and the new position in the file, which is at
least behind the characters used.  After the end of the file (`Eof`) nothing is read any more. -/
def consume (text : List Char) (t : Tokenizer) (pos : Nat) : Tokenizer × Nat :=
  if t.look = .eof then (t, pos)
  else
    let n := next H (pending text t.buf pos)
    let used := text.length - n.2.length
    let pos' := max pos (min text.length (used + H.ahead used))
    (⟨n.1, n.2.take (n.2.length - (text.length - pos'))⟩, pos')

def consumes : Nat → List Char → Tokenizer → Nat → Tokenizer × Nat
  | 0, _, t, pos => (t, pos)
  | n + 1, text, t, pos => let x := consume H text t pos; consumes n text x.1 x.2

/-- `NewTokenizer` (`tokenizer.go:57-62`) on a file: reads the first token.  (`illegal` only stands for "no token yet".) -/
def fresh (text : List Char) (pos : Nat) : Tokenizer × Nat := consume H text ⟨.illegal, []⟩ pos

/-- The tokens a tokenizer will deliver. -/
def tokens (text : List Char) (t : Tokenizer) (pos : Nat) : List Tok :=
  t.look :: (if t.look = .eof then [] else lex H.reader (pending text t.buf pos))

/-- `NewTokenizerFromFile` (`tokenizer.go:68-77`): only the tokenizer of the file used last is kept. -/
def tokenizerFor (w : World) (p : Nat) (text : List Char) (pos : Nat) : Tokenizer × Nat :=
  match w.recent with
  | some (q, t) => if q = p then (t, pos) else fresh H text pos
  | none => fresh H text pos

def setPos (w : World) (p : Nat) (pos : Nat) : World :=
  { w with files := w.files.modify p fun f => { f with pos := pos } }

/-- `EofObject` (`parser.go:18`). -/
def eofObject : Data := .sym "__EOF__"

/-- `ParseObjectFromFileInEnv` (`parser.go:382-393`) on the file `p`, open for input at `pos` with contents `text`.  An
illegal token is an error and stays the lookahead (`parser.go:282-284`). -/
def readFrom (w : World) (p : Nat) (text : List Char) (pos : Nat) : Out Data × World :=
  let x := tokenizerFor H w p text pos
  let ts := tokens H text x.1 x.2
  let keep (n : Nat) : World :=
    let y := consumes H n text x.1 x.2
    { setPos w p y.2 with recent := some (p, y.1) }
  match parseExpr H.reader ts with
  | .ok d rest => (.ok d, keep (ts.length - rest.length))
  | .eof => (.ok eofObject, keep ts.length)
  | .err => (.err (.msg "syntax error"), keep (if x.1.look = .illegal then 0 else H.skipped ts))
  | .timeout => (.timeout, w)

/-- `ReadImpl` (`prim_io.go:157-173`). -/
def readImpl (v : Data) (w : World) : Out Data × World :=
  match v with
  | .atom (.port p) =>
    match w.files[p]? with
    | some ⟨path, .input, pos, false⟩ => readFrom H w p ((w.disk path).getD []) pos
    | _ => (.err (.msg "read failed"), w)
  | _ => (.err (.msg "read expects its argument be a port"), w)

/-- `os.OpenFile` of a new file (`prim_io.go:48-52,62-66`). -/
def opened (path : String) (mode : Mode) (w : World) : Out Data × World :=
  (.ok (.atom (.port w.files.length)), { w with files := w.files ++ [⟨path, mode, 0, false⟩] })

/-- `OpenInputFileImpl` (`prim_io.go:55-67`). -/
def openInputImpl (v : Data) (w : World) : Out Data × World :=
  match v with
  | .str path =>
    match w.disk path with
    | some _ => opened path .input w
    | none => (.err (.msg ("open " ++ path ++ ": no such file or directory")), w)
  | _ => (.err (.msg "open-input-port expects its argument to be a string"), w)

def setDisk (w : World) (path : String) (text : List Char) : World :=
  { w with disk := fun q => if q = path then some text else w.disk q }

/-- `OpenOutputFileImpl` (`prim_io.go:36-53`): a true second argument appends, otherwise the file is emptied. -/
def openOutputImpl (v : Data) (app : Bool) (w : World) : Out Data × World :=
  match v with
  | .str path =>
    if H.refuses path then (.err (.msg ("open " ++ path ++ ": permission denied")), w)
    else if app then opened path .append (setDisk w path ((w.disk path).getD []))
    else opened path .output (setDisk w path [])
  | _ => (.err (.msg "open-output-port expects its argument to be a string"), w)

/-- `ClosePortImpl` (`prim_io.go:69-79`): the error of `Close` is ignored. -/
def closeImpl (v : Data) (w : World) : Out Data × World :=
  match v with
  | .atom (.port p) => (.ok .null, { w with files := w.files.modify p fun f => { f with closed := true } })
  | _ => (.err (.msg "close-port expects its argument be a port"), w)

/-- `os.File.WriteString`: at the position, or at the end of a file opened for appending. -/
def putText (p : Nat) (s : List Char) (w : World) : Out Data × World :=
  match w.files[p]? with
  | some ⟨path, .output, pos, false⟩ =>
    let old := (w.disk path).getD []
    let new := old.take pos ++ List.replicate (pos - old.length) '\x00' ++ s ++ old.drop (pos + s.length)
    (.ok .null, setPos (setDisk w path new) p (pos + s.length))
  | some ⟨path, .append, _, false⟩ => (.ok .null, setDisk w path ((w.disk path).getD [] ++ s))
  | _ => (.err (.msg "write failed"), w)

/-- The destination (`prim_io.go:105-115,124-133,142-151`): standard output if there is no port. -/
def putTo (msg : String) (s : List Char) : List Data → World → Out Data × World
  | [], w => (.ok .null, { w with out := w.out ++ s })
  | .atom (.port p) :: _, w => putText p s w
  | _, w => (.err (.msg msg), w)

/-- `WriteStringImpl` (`prim_io.go:98-119`). -/
def writeStringImpl (v : Data) (port : List Data) (w : World) : Out Data × World :=
  match v with
  | .str s => putTo "write-string expects its second argument be a port" s.toList port w
  | _ => (.err (.msg "write-string expects its first argument to be a string"), w)

/-- `WriteImpl` (`prim_io.go:121-137`). -/
def writeImpl (v : Data) (port : List Data) (w : World) : Out Data × World :=
  putTo "write expects its second argument be a port" (print H.reader v) port w

/-- `NewlineImpl` (`prim_io.go:139-155`). -/
def newlineImpl (port : List Data) (w : World) : Out Data × World :=
  putTo "newline expects its argument be a port" ['\n'] port w

/-- `EofObjectImpl` (`prim_io.go:175-177`). -/
def eofObjectImpl (v : Data) (w : World) : Out Data × World := (.ok (.bool (@isEqual .none v eofObject)), w)

/-- A call of one of the primitives of `RegisterIOPrimitives` (`prim_io.go:18-34`) that are modelled. -/
inductive Cmd where
  | openInput (v : Data)
  | openOutput (v : Data) (app : Bool)
  | close (v : Data)
  | writeString (v : Data) (port : List Data)
  | write (v : Data) (port : List Data)
  | newline (port : List Data)
  | read (v : Data)
  | isEof (v : Data)

def step : Cmd → World → Out Data × World
  | .openInput v => openInputImpl v
  | .openOutput v app => openOutputImpl H v app
  | .close v => closeImpl v
  | .writeString v port => writeStringImpl v port
  | .write v port => writeImpl H v port
  | .newline port => newlineImpl port
  | .read v => readImpl H v
  | .isEof v => eofObjectImpl v

end Golisp.Ports
