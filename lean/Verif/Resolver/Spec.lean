/-
What the users of a table of domain names may expect of it. It knows nothing of records, buckets or free lists.
-/
namespace Verif.Resolver

/-- A domain name as given by the user -/
abbrev Name := List UInt8
/-- The bytes of a socket address; no bytes stand for no address. -/
abbrev Addr := List UInt8
/-- Someone who asked -/
abbrev Caller := Nat

/-- Names are compared without regard to the case of the letters A to Z. -/
def small (n : Name) : Name := n.map fun c => if 65 ≤ c ∧ c ≤ 90 then c + 32 else c

/-- What has happened to the names of the table -/
inductive Event where
  /-- A name was entered. -/
  | entered (n : Name)
  /-- A name was removed. -/
  | removed (n : Name)
  /-- The name server answered the question for a name; no addresses stand for a failure. -/
  | answered (n : Name) (as : List Addr)
  | nothing
  deriving DecidableEq

/-- For a name: not in the table, or in the table with the addresses last learned -/
abbrev Table := Name → Option (List Addr)

def Table.set (t : Table) (n : Name) (v : Option (List Addr)) : Table := fun m => if m = n then v else t m

/-- A failure leaves what was learned before; of an answer the first eight addresses are kept; an answer for a name that is no longer in the table changes nothing. -/
def Table.after (t : Table) : Event → Table
  | .entered n => match t (small n) with
    | none => t.set (small n) (some [])
    | some _ => t
  | .removed n => t.set (small n) none
  | .answered n as => match t (small n), as with
    | some _, a :: as => t.set (small n) (some ((a :: as).take 8))
    | _, _ => t
  | .nothing => t

/-- One of the known addresses, chosen by a random number -/
def choose (l : Option (List Addr)) (r : Nat) : Option Addr :=
  match l with
  | some (a :: as) => (a :: as)[r % (a :: as).length]?
  | _ => none

end Verif.Resolver
