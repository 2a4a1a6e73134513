import Verif.Hls.CleanModel
/- What the cleanup has to do. -/
namespace Verif.HlsClean

/-- Fragments and keys live for twice the length of the playlist, playlists once; in seconds. -/
inductive Outdated (playlen now : Nat) : Name → Nat → Prop
  | ts (b t) : t + playlen / 500 ≤ now → Outdated playlen now (b ++ ".ts".toList) t
  | key (b t) : t + playlen / 500 ≤ now → Outdated playlen now (b ++ ".key".toList) t
  | list (b t) : t + playlen / 1000 ≤ now → Outdated playlen now (b ++ ".m3u8".toList) t

def Visible (name : Name) : Prop := name.head? ≠ some '.'

mutual
/-- Every file below a directory: its path, last name first, and its time. -/
def filesOf (path : List Name) : Node → List (List Name × Nat)
  | .file t => [(path, t)]
  | .other => []
  | .dir es => filesIn path es

def filesIn (path : List Name) : List (Name × Node) → List (List Name × Nat)
  | [] => []
  | (name, n) :: es => filesOf (name :: path) n ++ filesIn path es
end

/-- The walk can get to a path: no hidden name in it, every directory on the way can be read. -/
def Reached (w : World) : List Name → Prop
  | [] => True
  | name :: path => Visible name ∧ w.infoFails (name :: path) = false ∧ Reached w path ∧ w.openFails path = false

/-- A file that has to be deleted, and can be. -/
def Doomed (w : World) (f : List Name × Nat) : Prop :=
  Reached w f.1 ∧ w.delFails f.1 = false ∧ ∃ name path, f.1 = name :: path ∧ Outdated w.playlen w.now name f.2

mutual
/-- Every directory below a directory, and whether it is empty. -/
def dirsOf (path : List Name) : Node → List (List Name × Bool)
  | .file _ => []
  | .other => []
  | .dir es => (path, es.isEmpty) :: dirsIn path es

def dirsIn (path : List Name) : List (Name × Node) → List (List Name × Bool)
  | [] => []
  | (name, n) :: es => dirsOf (name :: path) n ++ dirsIn path es
end

/-- A directory that can be read and deleted. -/
def Removable (w : World) (path : List Name) : Prop := Reached w path ∧ w.openFails path = false ∧ w.delFails path = false

/-- Directories before and after: those that are left are among them; what cannot be removed is left; what is left and could be removed is not empty. -/
structure DirsOk (w : World) (l l' : List (List Name × Bool)) : Prop where
  hSub : (l'.map (·.1)).Sublist (l.map (·.1))
  hKept : ∀ p ∈ l.map (·.1), ¬ Removable w p → p ∈ l'.map (·.1)
  hFull : ∀ d ∈ l', Removable w d.1 → d.2 = false

mutual
/-- Every other thing below a directory. -/
def othersOf (path : List Name) : Node → List (List Name)
  | .file _ => []
  | .other => [path]
  | .dir es => othersIn path es

def othersIn (path : List Name) : List (Name × Node) → List (List Name)
  | [] => []
  | (name, n) :: es => othersOf (name :: path) n ++ othersIn path es
end

end Verif.HlsClean
