import Verif.Zone.Model
/- Specification of the stream zone: a table from names to owners, read off the shared memory without using the code's search. -/
namespace Verif.Zone
open Verif

/-- Node `i` can be reached from the head of bucket `b`. -/
inductive On (m : Mem) (b : Nat) : Nat → Prop where
  | first {i} : m.head b = some i → On m b i
  | next {i j} : On m b i → (m.nodes i).next = some j → On m b j

/-- Name `n` is in the table with owner `p`: some bucket (whichever) holds a node with that name and owner. -/
def Registered (c : Cfg) (m : Mem) (n : Bytes) (p : Int) : Prop :=
  ∃ b, b < c.nb ∧ ∃ i, On m b i ∧ (m.nodes i).name = n ∧ (m.nodes i).slot = p

/-- As many different names as there are slots are in the table. -/
def Full (c : Cfg) (m : Mem) : Prop :=
  ∃ l : List Bytes, l.Nodup ∧ l.length = c.ns ∧ ∀ n ∈ l, ∃ p, Registered c m n p

/-- Names that C strings can represent. -/
def NulFree (n : Bytes) : Prop := (0 : UInt8) ∉ n

/-- What each event may do to the table `T` of name/owner pairs, giving `T'`. -/
def Allowed (T T' : Bytes → Int → Prop) : Ev → Prop
  | .tau | .asked _ _ => T' = T
  | .inserted _ _ .error => T' = T
  -- the returned process is the owner; an existing owner is kept; a new owner is the caller; other names are not touched
  | .inserted w n (.slot p) => T' n p ∧ (∀ q, T n q → q = p) ∧ ((¬ ∃ q, T n q) → p = w) ∧ (∀ q, T' n q → q = p) ∧
      ∀ k, k ≠ n → T' k = T k
  | .removed w n => T n w ∧ (∀ q, ¬ T' n q) ∧ ∀ k, k ≠ n → T' k = T k
  | .notRemoved w n => ¬ T n w ∧ T' = T
  -- clearing drops an entry of the clearing process
  | .dropped w _ => ∃ n, T n w ∧ ∀ k q, T' k q ↔ T k q ∧ k ≠ n
  | .cleared w => (∀ n, ¬ T n w) ∧ T' = T

end Verif.Zone
