import Verif.Model.LogFifo
/-!
# Specification of log streams and of the control pipe
-/
namespace IFEM.Spec
open LogFifo

/-- Number of subscriptions of stream `s` after some calls, from `n` at the beginning: each `add` gives one more (the only one, if it clears the list), each
`remove` one less. -/
def subs {α : Type} (s : Nat) : Nat → List (Call α) → Nat
  | n, [] => n
  | n, .add t c :: l => subs s ((if c then 0 else n) + (if t = s then 1 else 0)) l
  | n, .remove t :: l => subs s (if t = s then n - 1 else n) l
  | n, _ :: l => subs s n l

/-- The main stream after some calls. -/
def mainOf {α : Type} : Option Nat → List (Call α) → Option Nat
  | m, [] => m
  | _, .setNull :: l => mainOf none l
  | _, .setStream s :: l => mainOf (some s) l
  | m, _ :: l => mainOf m l

/-- Whether this process prints, after some calls. -/
def printsOf {α : Type} : Bool → List (Call α) → Bool
  | b, [] => b
  | _, .setPIDs p q :: l => printsOf (decide (p = q)) l
  | b, _ :: l => printsOf b l

/-- The callback of a context: the one registered first. -/
def firstReg {C : Type} (ctx : String) : List (Act C) → Option C
  | [] => none
  | .register x c :: l => if x = ctx then some c else firstReg ctx l
  | _ :: l => firstReg ctx l

end IFEM.Spec
