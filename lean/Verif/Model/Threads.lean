import Verif.Model.FileHandler
/-!
# Loading from buffers in several threads

surfalize/batch.py:27-33 (`FileInput`), 429-432 (`_task` loads from the buffer), 697-709 (`ThreadPool`),
surfalize/file/common.py:172-185, 457-507.

A reader is a program that uses the open file only through `tell`, `read` and `seek`. Each of these calls on an `io.BytesIO` is
one indivisible step (it holds the interpreter lock); between two of them other threads may run. Computation between the calls is
part of the program.
-/
namespace Surfalize.Threads
open Surfalize Files

/-- The calls of a reader on its file. -/
inductive Act where
  | tell
  | read (n : Nat)
  | readAll
  | seek (p : Nat)
  | skip (n : Nat)
  | seekEnd

/-- What a call returns: bytes or a position. -/
abbrev Reply := Bytes × Nat

/-- One call on a buffer. -/
def Act.exec : Act → Handle → Reply × Handle
  | tell, h => (([], h.pos), h)
  | read n, h => (((h.read n).1, 0), (h.read n).2)
  | readAll, h => ((h.readAll.1, 0), h.readAll.2)
  | seek p, h => (([], p), h.seek p)
  | skip n, h => (([], h.pos + n), h.skip n)
  | seekEnd, h => (([], h.buf.length), h.seek h.buf.length)

/-- A program: finished with a value, or a call and what follows for each reply. -/
inductive Prog (α : Type) where
  | ret (x : α)
  | act (a : Act) (k : Reply → Prog α)

namespace Prog
variable {α β : Type}

/-- One program after the other. -/
def bind : Prog α → (α → Prog β) → Prog β
  | ret x, f => f x
  | act a k, f => act a fun r => (k r).bind f

/-- The program alone on a buffer: its value and the buffer afterwards. -/
def run : Prog α → Handle → α × Handle
  | ret x, h => (x, h)
  | act a k, h => (k (a.exec h).1).run (a.exec h).2

/-- The value of a finished program. -/
def value : Prog α → Option α
  | ret x => some x
  | act _ _ => none
end Prog

/-! ## `FileHandler.read` of a buffer as a program -/
section
variable {R : Type}

/-- A reader as it is registered (surfalize/file/common.py:420-438). -/
structure PReader (R : Type) where
  suffixes : List (List Char)
  magics : List Bytes
  prog : Prog (Except Err R)

/-- The reader run alone, as in `Model/FileHandler`. -/
def PReader.reader (r : PReader R) : Reader R :=
  ⟨r.suffixes, r.magics, fun h => ((r.prog.run h).1, (r.prog.run h).2.pos)⟩

/-- `_readers_by_suffix` (surfalize/file/common.py:425-429). -/
def bySuffixP (rs : List (PReader R)) : List (List Char × Prog (Except Err R)) :=
  rs.foldl (fun d r => r.suffixes.foldl (fun d s => put s r.prog d) d) []

/-- `_readers_by_magic` (surfalize/file/common.py:430-436). -/
def byMagicP (rs : List (PReader R)) : List (Bytes × Prog (Except Err R)) :=
  rs.foldl (fun d r => r.magics.foldl (fun d m => put m r.prog d) d) []

/-- Leaving `open_file_like` (surfalize/file/common.py:181-183): back to position `p` unless there was an exception. -/
def leave (p : Nat) : Except Err R → Prog (Except Err R)
  | .ok x => .act (.seek p) fun _ => .ret (.ok x)
  | .error e => .ret (.error e)

/-- `with open_file_like(file) as f: return reader(f)` (surfalize/file/common.py:471-472). -/
def attemptP (r : Prog (Except Err R)) : Prog (Except Err R) :=
  .act .tell fun t => r.bind (leave t.2)

/-- surfalize/file/common.py:478-487: `none` if no magic number matches. -/
def magicP : List (Bytes × Prog (Except Err R)) → Prog (Option (Except Err R))
  | [] => .ret none
  | (m, r) :: rest =>
    .act .tell fun t => .act (.read m.length) fun b =>
      if b.1 = m then .act (.seek 0) fun _ => (r.bind (leave t.2)).bind fun x => .ret (some x)
      else .act (.seek t.2) fun _ => magicP rest

/-- surfalize/file/common.py:491-502 for a buffer: a success is followed by an AttributeError, so nothing is ever
returned. -/
def probeP : List (List Char × Prog (Except Err R)) → Prog Unit
  | [] => .ret ()
  | (_, r) :: rest => (attemptP r).bind fun _ => probeP rest

/-- `FileHandler.read` for a buffer (surfalize/file/common.py:457-507). -/
def loadP (rs : List (PReader R)) (format : Option (List Char)) : Prog (Except Err R) :=
  let rest (e : Option Err) : Prog (Except Err R) :=
    (magicP (byMagicP rs)).bind fun
      | some out => .ret out
      | none => (probeP (bySuffixP rs)).bind fun _ => .ret (.error (e.getD .unsupported))
  match format with
  | none => rest none
  | some f =>
    match (bySuffixP rs).lookup (lower f) with
    | none => rest (some .unsupported)
    | some r => (attemptP r).bind fun
      | .ok x => .ret (.ok x)
      | .error e => rest (some e)
end

/-! ## Threads -/

/-- The buffers, and the threads: each works on one buffer (`FileInput.data`) and has a program still to run. -/
structure Machine (α : Type) where
  buffers : List Handle
  threads : List (Nat × Prog α)

variable {α : Type}

/-- Thread `i` makes its next call. A thread that is finished, or does not exist, does nothing. -/
def Machine.step (m : Machine α) (i : Nat) : Machine α :=
  match m.threads[i]? with
  | some (b, .act a k) =>
    match m.buffers[b]? with
    | some h => ⟨m.buffers.set b (a.exec h).2, m.threads.set i (b, k (a.exec h).1)⟩
    | none => m
  | _ => m

/-- A schedule: which thread makes its next call, one after the other. -/
def Machine.run (m : Machine α) (sched : List Nat) : Machine α := sched.foldl Machine.step m

/-- All threads are finished. -/
def Machine.done (m : Machine α) : Prop := ∀ t ∈ m.threads, t.2.value.isSome

/-- Without multiprocessing (surfalize/batch.py:711-717): one after the other, to the end, until an exception. -/
def sequential {R : Type} (buffers : List Handle) : List (Nat × Prog (Except Err R)) → Except Err (List R) × List Handle
  | [] => (.ok [], buffers)
  | (b, p) :: ts =>
    match buffers[b]? with
    | none => (.error .typeError, buffers)
    | some h =>
      match p.run h with
      | (.error e, h') => (.error e, buffers.set b h')
      | (.ok x, h') =>
        match sequential (buffers.set b h') ts with
        | (.ok xs, bs) => (.ok (x :: xs), bs)
        | (.error e, bs) => (.error e, bs)

end Surfalize.Threads
