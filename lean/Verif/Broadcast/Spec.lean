import Verif.Broadcast.Model
/-
What the client should get: one list made of the lists of the workers.
-/
namespace Verif.Broadcast

/-- Items with a separator between them -/
def between (sep : Nat) : List (List Nat) → List Nat
  | [] => []
  | [x] => x
  | x :: y :: l => x ++ sep :: between sep (y :: l)

/-- A list as text -/
def listText (opening sep closing : Nat) (items : List (List Nat)) : List Nat := opening :: between sep items ++ [closing]

/-- A worker writes the separator before each of its items, in whatever buffers. -/
def Writes (sep : Nat) (a : Answer) (items : List (List Nat)) : Prop := a.bufs.flatten = (items.map fun x => sep :: x).flatten

/-- The items of the workers that answer with 200, in the order of the workers -/
def allItems (n : Nat) (ans : Nat → Answer) (items : Nat → List (List Nat)) : List (List Nat) :=
  (List.range n).flatMap fun w => if (ans w).status = 200 then items w else []

end Verif.Broadcast
