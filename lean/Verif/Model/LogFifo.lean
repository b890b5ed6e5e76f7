/-!
# Model of log streams and of the control pipe (src/Utility/LogStream.[hC], src/Utility/ControlFIFO.[hC])
-/
namespace IFEM.LogFifo

/-! ## LogStream

An output stream is a number; its state is the list of what was written to it, its precision and its format flags.  Writing to a stream always succeeds. -/

/-- State of an output stream. -/
structure Stream (α : Type) where
  text : List α
  prec : Int
  fmt : Nat

/-- Data members of `LogStream` (LogStream.h:129-132). -/
structure Log where
  out : Option Nat
  extra : List Nat
  ppid : Int
  pid : Int

abbrev World (α : Type) := Nat → Stream α

/-- Change of one stream. -/
def upd {α : Type} (w : World α) (s : Nat) (f : Stream α → Stream α) : World α := fun t => if t = s then f (w t) else w t

/-- `*out << d` on a stream. -/
def put {α : Type} (d : α) (w : World α) (s : Nat) : World α := upd w s fun c => { c with text := c.text ++ [d] }

/-- `LogStream::write` and `operator<<` of a manipulator (LogStream.h:83-92, LogStream.C:26-35). -/
def write {α : Type} (l : Log) (d : α) (w : World α) : World α :=
  let w := match l.out with
    | some s => if l.ppid = l.pid then put d w s else w
    | none => w
  l.extra.foldl (put d) w

/-- `LogStream::addExtraLog` (LogStream.C:56-62). -/
def Log.add (l : Log) (s : Nat) (clear : Bool) : Log := { l with extra := (if clear then [] else l.extra) ++ [s] }

/-- `LogStream::removeExtraLog` (LogStream.C:65-70): the first entry with this stream. -/
def Log.remove (l : Log) (s : Nat) : Log := { l with extra := l.extra.erase s }

/-- `LogStream::precision` (LogStream.C:73-84). -/
def setPrec {α : Type} (l : Log) (p : Int) (w : World α) : World α × Int :=
  let st := fun w s => upd (α := α) w s fun c => { c with prec := p }
  match l.out with
  | some s => (l.extra.foldl st (st w s), (w s).prec)
  | none => (l.extra.foldl st w, p)

/-- `LogStream::flags` (LogStream.C:96-107). -/
def setFlags {α : Type} (l : Log) (f : Nat) (w : World α) : World α × Nat :=
  let st := fun w s => upd (α := α) w s fun c => { c with fmt := f }
  match l.out with
  | some s => (l.extra.foldl st (st w s), (w s).fmt)
  | none => (l.extra.foldl st w, f)

/-- `LogStream::precision() const` (LogStream.h:98). -/
def getPrec {α : Type} (l : Log) (w : World α) : Int := match l.out with | some s => (w s).prec | none => 6

/-- The calls that change a log. -/
inductive Call (α : Type)
  | setNull
  | setStream (s : Nat)
  | setPIDs (ppid pid : Int)
  | add (s : Nat) (clear : Bool)
  | remove (s : Nat)
  | write (d : α)

/-- One call (LogStream.h:41-46 for the setters). -/
def step {α : Type} : Log × World α → Call α → Log × World α
  | (l, w), .setNull => ({ l with out := none }, w)
  | (l, w), .setStream s => ({ l with out := some s }, w)
  | (l, w), .setPIDs a b => ({ l with ppid := a, pid := b }, w)
  | (l, w), .add s c => (l.add s c, w)
  | (l, w), .remove s => (l.remove s, w)
  | (l, w), .write d => (l, LogFifo.write l d w)

/-! ## ControlFIFO -/

/-- Data of `ControlFIFO` (ControlFIFO.h:65-68): the callbacks by context, and whether the pipe is open. -/
structure Fifo (C : Type) where
  isOpen : Bool
  callbacks : List (String × C)

/-- `ControlFIFO::registerCallback` (ControlFIFO.C:79-82): `insert` keeps an existing entry. -/
def Fifo.register {C : Type} (f : Fifo C) (ctx : String) (c : C) : Fifo C :=
  if (f.callbacks.lookup ctx).isSome then f else { f with callbacks := f.callbacks ++ [(ctx, c)] }

/-- Size of the buffer (ControlFIFO.C:51). -/
def bufSize : Nat := 2048

/-- `ControlFIFO::poll` (ControlFIFO.C:46-76).  The content of the pipe is a list of bytes; a read error (nothing written) has the effect of an empty pipe.
`parse` gives the names and contents of the children of the first root element, if there is a root element.  The result is the rest of the content and the
calls of `OnControl`, or `none` if the terminating zero is written beyond the buffer. -/
def Fifo.poll {C E : Type} (parse : List Nat → Option (List (String × E))) (f : Fifo C) (content : List Nat) : Option (List Nat × List (C × E)) :=
  if f.isOpen = false then some (content, []) else
  let data := content.take bufSize
  if data.length ≥ bufSize then none else
  let text := data.takeWhile (· ≠ 0)
  if text = [] then some (content.drop bufSize, []) else
  match parse text with
  | none => some (content.drop bufSize, [])
  | some els => some (content.drop bufSize, els.filterMap fun e => (f.callbacks.lookup e.1).map fun c => (c, e.2))

/-- The program: registrations, writing into the pipe, polling. -/
inductive Act (C : Type)
  | register (ctx : String) (c : C)
  | send (msg : List Nat)
  | poll

/-- Pipe, content and the calls made up to now. -/
structure FState (C E : Type) where
  f : Fifo C
  content : List Nat
  calls : List (C × E)

/-- One action. -/
def act {C E : Type} (parse : List Nat → Option (List (String × E))) (s : FState C E) : Act C → Option (FState C E)
  | .register ctx c => some { s with f := s.f.register ctx c }
  | .send m => some { s with content := s.content ++ m }
  | .poll => match s.f.poll parse s.content with
    | none => none
    | some (rest, cs) => some ⟨s.f, rest, s.calls ++ cs⟩

/-- A sequence of actions. -/
def acts {C E : Type} (parse : List Nat → Option (List (String × E))) : FState C E → List (Act C) → Option (FState C E)
  | s, [] => some s
  | s, a :: l => (act parse s a).bind fun t => acts parse t l

end IFEM.LogFifo
