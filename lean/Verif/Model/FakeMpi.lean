import Mathlib.Data.List.Basic

/-!
# The substitute for MPI on one process

Model of `FakeComm` in `/repo/openms/__mpi__.py` L5-85, used when `mpi4py` is not installed, next to
what MPI does on a communicator with one process.  Arrays are lists; the assignment
`recvbuf[:] = sendbuf` copies an array of the same length and repeats an array of length one.
-/

namespace OpenMS.FakeMpi

variable {X : Type*}

/-- A buffer argument: an array, or the list `[array, counts, displs, type]` of the `v` variants. -/
inductive Arg (X : Type*) where
  | array (l : List X)
  | spec (buf : List X) (counts displs : List ℕ)

/-- `recvbuf[:] = sendbuf` for two arrays; other lengths raise `ValueError`. -/
def assign (recv send : List X) : Except String (List X) :=
  if send.length = recv.length then .ok send
  else match send with
    | [x] => .ok (recv.map fun _ => x)
    | _ => .error "ValueError"

/-- `__mpi__.py` L80-81: `FakeComm.Scatterv`: the new content of the receiving array.  A list of
an array, two lists and `None` cannot be assigned to an array of numbers. -/
def scatterv (send : Arg X) (recv : List X) : Except String (List X) :=
  match send with
  | .array l => assign recv l
  | .spec _ _ _ => .error "ValueError"

/-- L36-37: `FakeComm.Gatherv`: the new content of the receiving array.  If the receiver is given
by a list, the slice assignment changes that list and not the array in it. -/
def gatherv (send : List X) (recv : Arg X) : Except String (List X) :=
  match recv with
  | .array l => assign l send
  | .spec buf _ _ => .ok buf

/-- L33-34, L42-43, L65-66, L74-75, L77-78: `Gather`, `Allgather`, `Allreduce`, `Reduce`, `Scatter`. -/
def collective (send recv : List X) : Except String (List X) := assign recv send

/-- L39-40: `gather`. -/
def gather (x : List X) : List (List X) := [x]

/-- L83-85: `scatter` asserts that there is one row. -/
def scatter (rows : List (List X)) : Except String (List X) :=
  match rows with
  | [r] => .ok r
  | _ => .error "AssertionError"

/-- A message operation of a process with itself. -/
inductive Op (X : Type*) where
  | send (tag : ℕ) (data : X)
  | recv (tag : ℕ)

/-- L54-56, L61-63: `Isend` stores the message under its tag, `Recv` copies what is stored there and
leaves it; without a message the receiving buffer keeps its content (`none`).  The list
contains the result of every `Recv`. -/
def fake : (ℕ → Option X) → List (Op X) → List (Option X)
  | _, [] => []
  | buf, .send t x :: ops => fake (fun s => if s = t then some x else buf s) ops
  | buf, .recv t :: ops => buf t :: fake buf ops

/-- MPI: messages with the same tag are received once, in the order in which they were sent; a
receive without a message never returns (`none`). -/
def real : (ℕ → List X) → List (Op X) → Option (List (Option X))
  | _, [] => some []
  | q, .send t x :: ops => real (fun s => if s = t then q t ++ [x] else q s) ops
  | q, .recv t :: ops =>
    match q t with
    | [] => none
    | x :: xs => (real (fun s => if s = t then xs else q s) ops).map (some x :: ·)

end OpenMS.FakeMpi
