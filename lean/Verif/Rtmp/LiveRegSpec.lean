import Verif.Base.Bytes
/- C27, specification: a two-level map from names to handles. -/
namespace Verif.LiveReg
open Verif

/-- Server name → handle and "to be deleted"; server name, stream name → handle. -/
structure Abs where
  srvs : Bytes → Option (Nat × Bool)
  strs : Bytes → Bytes → Option Nat

def Abs.empty : Abs := ⟨fun _ => none, fun _ _ => none⟩

def Abs.setSrv (a : Abs) (id : Bytes) (v : Option (Nat × Bool)) : Abs :=
  { a with srvs := fun x => if x = id then v else a.srvs x }

def Abs.setStr (a : Abs) (id name : Bytes) (v : Option Nat) : Abs :=
  { a with strs := fun x y => if x = id ∧ y = name then v else a.strs x y }

/-- The server has no streams. -/
def Abs.Bare (a : Abs) (id : Bytes) : Prop := ∀ name, a.strs id name = none

inductive Op where
  | createServer (id : Bytes)
  | deleteServer (id : Bytes)
  | createStream (id name : Bytes)
  | deleteStream (id name : Bytes)
deriving DecidableEq, Repr

/-- Longest name that can be stored. -/
def maxName : Nat := 511

/-- What an operation may answer (`r`, none is NULL or no answer) and what the registry is afterwards. -/
def Spec (a : Abs) : Op → Option Nat → Abs → Prop
  | .createServer id, r, a' =>
    match a.srvs id with
    | some (h, _) => r = some h ∧ a' = a.setSrv id (some (h, false))
    | none =>
      if id.length ≤ maxName then ∃ h, r = some h ∧ (∀ id' d, a.srvs id' ≠ some (h, d)) ∧ a' = a.setSrv id (some (h, false))
      else r = none ∧ a' = a
  | .deleteServer id, r, a' =>
    r = none ∧
    match a.srvs id with
    | none => a' = a
    | some (h, _) => (a.Bare id → a' = a.setSrv id none) ∧ (¬ a.Bare id → a' = a.setSrv id (some (h, true)))
  | .createStream id name, r, a' =>
    match a.srvs id, a.strs id name with
    | none, _ => r = none ∧ a' = a
    | some _, some h => r = some h ∧ a' = a
    | some _, none => ∃ h, r = some h ∧ (∀ id' n', a.strs id' n' ≠ some h) ∧ a' = a.setStr id name (some h)
  | .deleteStream id name, r, a' =>
    r = none ∧
    match a.srvs id, a.strs id name with
    | some (_, d), some _ =>
      let b := a.setStr id name none
      (d = true ∧ b.Bare id → a' = b.setSrv id none) ∧ (¬ (d = true ∧ b.Bare id) → a' = b)
    | _, _ => a' = a

end Verif.LiveReg
