import Verif.Model.Bytes

/-
The calls of the operating system under `read_to_string` and `write_all`. `Env` and `RawEnv` take reading a file and
writing a text as one step each; here a file arrives in pieces, a write may take a part of what is offered, and both may
be interrupted. Standard output holds back an unfinished line.
-/

namespace C8S

/-- What one call of `read` gives: some bytes (none at the end of the file), an interruption, or an error —
main.rs:46. -/
inductive ReadAnswer where
  | bytes (b : List U8)
  | interrupted
  | failed (reason : Str)
  deriving DecidableEq, Repr

/-- What one call of `write` does: it takes as many bytes as it can but not more than so many, or is interrupted, or
fails — main.rs:100. -/
inductive WriteAnswer where
  | upTo (n : Nat)
  | interrupted
  | failed (reason : Str)
  deriving DecidableEq, Repr

/-- `std::io::Read::read_to_end` under `read_to_string` (main.rs:46): reads until there is nothing more, again after an
interruption. `panic` if the system gives no further answer. -/
def readToEnd (before : List U8) : List ReadAnswer → Run (Except Str (List U8))
  | [] => .panic
  | .bytes b :: more => if b = [] then .ret (.ok before) else readToEnd (before ++ b) more
  | .interrupted :: more => readToEnd before more
  | .failed reason :: _ => .ret (.error reason)

/-- A place to write to: the answers that the system is going to give, the bytes it has taken, and those that are held
back in the buffer of the process — main.rs:86-100. -/
structure Writer where
  answers : List WriteAnswer
  received : List U8
  buffered : List U8
  deriving DecidableEq, Repr

/-- `std::io::Write::write_all` on a file (main.rs:100): offers what is left until there is nothing left, again after an
interruption. `panic` if the system gives no further answer. -/
def writeAll (received buffered : List U8) : List WriteAnswer → List U8 → Run (Writer × Except Str Unit)
  | answers, [] => .ret (⟨answers, received, buffered⟩, .ok ())
  | [], _ :: _ => .panic
  | .interrupted :: more, b :: bs => writeAll received buffered more (b :: bs)
  | .failed reason :: more, _ :: _ => .ret (⟨more, received, buffered⟩, .error reason)
  | .upTo n :: more, b :: bs =>
    if n = 0 then .ret (⟨more, received, buffered⟩, .error "failed to write whole buffer".toList)
    else writeAll (received ++ (b :: bs).take n) buffered more ((b :: bs).drop n)

/-- `std::io::BufWriter::flush_buf`, for standard output: sends what is in the buffer. What the system did not take
stays in it — main.rs:57-167. -/
def flushBuf (received : List U8) : List WriteAnswer → List U8 → Run (Writer × Except Str Unit)
  | answers, [] => .ret (⟨answers, received, []⟩, .ok ())
  | [], _ :: _ => .panic
  | .interrupted :: more, b :: bs => flushBuf received more (b :: bs)
  | .failed reason :: more, b :: bs => .ret (⟨more, received, b :: bs⟩, .error reason)
  | .upTo n :: more, b :: bs =>
    if n = 0 then .ret (⟨more, received, b :: bs⟩, .error "failed to write the buffered data".toList)
    else flushBuf (received ++ (b :: bs).take n) more ((b :: bs).drop n)

/-- The operator `?` between two writes: the second is made if the first succeeds — main.rs:57-167. -/
def thenWrite (first : Run (Writer × Except Str Unit)) (second : Writer → Run (Writer × Except Str Unit)) :
    Run (Writer × Except Str Unit) :=
  match first with
  | .panic => .panic
  | .ret (w, .error reason) => .ret (w, .error reason)
  | .ret (w, .ok ()) => second w

/-- `std::io::BufWriter::write_all`, for standard output — main.rs:57-167. -/
def bufWriteAll (capacity : Nat) (w : Writer) (buf : List U8) : Run (Writer × Except Str Unit) :=
  if buf.length < capacity - w.buffered.length then .ret (⟨w.answers, w.received, w.buffered ++ buf⟩, .ok ())
  else
    thenWrite
      (if capacity - w.buffered.length < buf.length then flushBuf w.received w.answers w.buffered else .ret (w, .ok ()))
      fun w =>
        if capacity ≤ buf.length then writeAll w.received w.buffered w.answers buf
        else .ret (⟨w.answers, w.received, w.buffered ++ buf⟩, .ok ())

/-- The bytes up to and with the last newline, and those after it — main.rs:57-167. -/
def splitLines (buf : List U8) : List U8 × List U8 :=
  let tail := (buf.reverse.takeWhile (· ≠ 10)).reverse
  (buf.take (buf.length - tail.length), tail)

/-- `write_all` on standard output (`std::io::LineWriter`): finished lines are sent, the rest is held back — under
main.rs:87, 100 and under `println!` and `print!`. -/
def lineWriteAll (capacity : Nat) (w : Writer) (buf : List U8) : Run (Writer × Except Str Unit) :=
  let (lines, tail) := splitLines buf
  if lines = [] then
    thenWrite (if w.buffered.getLast? = some 10 then flushBuf w.received w.answers w.buffered else .ret (w, .ok ()))
      fun w => bufWriteAll capacity w buf
  else
    thenWrite
      (if w.buffered = [] then writeAll w.received w.buffered w.answers lines
       else thenWrite (bufWriteAll capacity w lines) fun w => flushBuf w.received w.answers w.buffered)
      fun w => bufWriteAll capacity w tail

/-- The pieces of a formatted text, written one after the other until one fails — `write_fmt` under `println!` and
`print!` — main.rs:57-167. -/
def writeEach (capacity : Nat) (w : Writer) : List (List U8) → Run (Writer × Except Str Unit)
  | [] => .ret (w, .ok ())
  | buf :: more => thenWrite (lineWriteAll capacity w buf) fun w => writeEach capacity w more

/-- The operating system, call by call — main.rs:34-169. -/
structure System where
  openInput : Str → Except Str Unit
  /-- The answers to reading the file at a path. -/
  reads : Str → List ReadAnswer
  createOutput : Str → Except Str Unit
  /-- The answers to writing. -/
  writes : Dest → List WriteAnswer

/-- `write_all` on the output of `assemble_file` — main.rs:86-100. Nothing is in the buffer of standard output yet, which
has room for 1024 bytes. -/
def System.send (sys : System) (dest : Dest) (bytes : List U8) : Run (Writer × Except Str Unit) :=
  match dest with
  | .stdout => lineWriteAll 1024 ⟨sys.writes .stdout, [], []⟩ bytes
  | .file path => writeAll [] [] (sys.writes (.file path)) bytes

/-- The system as `assemble_file` sees it — main.rs:37-100. A system that stops answering is given an error here that it
does not report; the theorems say when it answers. -/
def System.raw (sys : System) : RawEnv where
  openInput := sys.openInput
  readInput := fun path =>
    match readToEnd [] (sys.reads path) with
    | .ret r => r
    | .panic => .error "no answer".toList
  createOutput := sys.createOutput
  writeOutput := fun dest bytes =>
    match sys.send dest bytes with
    | .ret (_, .ok ()) => .ok ()
    | .ret (w, .error reason) => .error (reason, w.received.length)
    | .panic => .error ("no answer".toList, 0)

end C8S
