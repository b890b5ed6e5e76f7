/-!
# Processes that exchange messages

A process is a tree of sends and receives.  `Prog.send` and `Prog.recv` stand for `ProcessAdm::send` and `ProcessAdm::receive` (`src/ASM/ProcessAdm.C`), which call
`MPI_Send` and `MPI_Recv` with the tag 101 for an integer and 102 for a vector of integers.

Two semantics are given, because the MPI standard lets an implementation choose whether `MPI_Send` waits for the receiver.  In the *buffered* semantics a send never waits:
the message is put into the queue from the sender to the receiver with this tag, and a receive takes the oldest message from its queue, and waits if the queue is empty.  In
the *rendezvous* semantics a send waits until the receiver has posted the receive with the same tag.  In both semantics any process that is able to proceed may do so: the
schedule is arbitrary.
-/
namespace IFEM.Mpi

/-- Message tags (ProcessAdm.C:125,135,165,176).  The messages of `MPI_Bcast` are kept apart from the others by MPI. -/
inductive Tag where
  | int
  | vec
  | bcast
deriving DecidableEq, Repr

/-- What remains to be done by a process: nothing but delivering its result, sending a message, or waiting for one (ProcessAdm.C:121-137, 159-178). -/
inductive Prog (R : Type) where
  | done (r : R)
  | send (dst : Nat) (t : Tag) (m : List Int) (k : Prog R)
  | recv (src : Nat) (t : Tag) (k : List Int → Prog R)

/-- `ProcessAdm::send(int,int)` (ProcessAdm.C:121-127). -/
def sendInt {R : Type} (dst : Nat) (v : Int) (k : Prog R) : Prog R := .send dst .int [v] k

/-- `ProcessAdm::send(std::vector<int>&,int)` (ProcessAdm.C:130-137): an empty vector is not sent. -/
def sendVec {R : Type} (dst : Nat) (v : List Int) (k : Prog R) : Prog R := if v = [] then k else .send dst .vec v k

/-- `ProcessAdm::receive(int&,int)` (ProcessAdm.C:159-167).  The process fails (with the result `r`) if the message does not contain one integer. -/
def recvInt {R : Type} (r : R) (src : Nat) (k : Int → Prog R) : Prog R :=
  .recv src .int fun m => match m with
    | [v] => k v
    | _ => .done r

/-- `ProcessAdm::receive(std::vector<int>&,int)` for a vector of size `n` (ProcessAdm.C:170-178): nothing is received when `n = 0`.  A message of another size than `n` (which
is an error in MPI if it is longer, and leaves entries unset if it is shorter) makes the process fail with the result `r`. -/
def recvVec {R : Type} (r : R) (src n : Nat) (k : List Int → Prog R) : Prog R :=
  if n = 0 then k [] else .recv src .vec fun m => if m.length = n then k m else .done r

/-- `MPI_Bcast` of a vector on the process that has the vector: the other processes are sent the vector one after the other. -/
def bcastSend {R : Type} (v : List Int) (k : Prog R) : List Nat → Prog R
  | [] => k
  | q :: qs => .send q .bcast v (bcastSend v k qs)

/-- `MPI_Bcast` of a vector of size `n` on the other processes. -/
def bcastRecv {R : Type} (r : R) (src n : Nat) (k : List Int → Prog R) : Prog R := .recv src .bcast fun m => if m.length = n then k m else .done r

/-- Replaces the program of one process. -/
def upd {A : Type} (st : Nat → A) (p : Nat) (x : A) : Nat → A := fun r => if r = p then x else st r

/-- Rendezvous semantics: `p` sends to `q`, which waits for this message. -/
inductive SyncStep {R : Type} : (Nat → Prog R) → (Nat → Prog R) → Prop where
  | comm (st : Nat → Prog R) (p q : Nat) (t : Tag) (m : List Int) (k : Prog R) (k' : List Int → Prog R) :
      st p = .send q t m k → st q = .recv p t k' → SyncStep st (upd (upd st p k) q (k' m))

/-- The queue of the messages from a sender to a receiver with a given tag. -/
abbrev Queues := Nat × Nat × Tag → List (List Int)

/-- Replaces one queue. -/
def updQ (ch : Queues) (c : Nat × Nat × Tag) (x : List (List Int)) : Queues := fun d => if d = c then x else ch d

/-- Buffered semantics. -/
inductive BufStep {R : Type} : (Nat → Prog R) × Queues → (Nat → Prog R) × Queues → Prop where
  | send (st : Nat → Prog R) (ch : Queues) (p q : Nat) (t : Tag) (m : List Int) (k : Prog R) :
      st p = .send q t m k → BufStep (st, ch) (upd st p k, updQ ch (p, q, t) (ch (p, q, t) ++ [m]))
  | recv (st : Nat → Prog R) (ch : Queues) (p q : Nat) (t : Tag) (m : List Int) (ms : List (List Int)) (k : List Int → Prog R) :
      st q = .recv p t k → ch (p, q, t) = m :: ms → BufStep (st, ch) (upd st q (k m), updQ ch (p, q, t) ms)

/-- Execution in `n` steps. -/
inductive Run {S : Type} (step : S → S → Prop) : Nat → S → S → Prop where
  | refl (a : S) : Run step 0 a a
  | tail {n : Nat} {a b c : S} : step a b → Run step n b c → Run step (n+1) a c

end IFEM.Mpi
