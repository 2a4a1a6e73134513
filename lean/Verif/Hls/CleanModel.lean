/-
Removing old HLS files: modules/nginx-rtmp-module/hls/ngx_rtmp_hls_module.c:2322-2465. Names are lists of `Char`, one for a byte.
-/
namespace Verif.HlsClean

abbrev Name := List Char

/-- What is in a directory. `other`: neither file nor directory, for instance a symbolic link. Times in seconds. -/
inductive Node where
  | file (mtime : Nat)
  | dir (es : List (Name × Node))
  | other

/-- Where system calls fail. Paths are relative to the configured directory, last name first. Paths that do not fit into 4096 bytes are cut by the code; the kernel takes no path of that length, so `infoFails` holds for them. -/
structure World where
  now : Nat
  playlen : Nat
  openFails : List Name → Bool := fun _ => false
  infoFails : List Name → Bool := fun _ => false
  delFails : List Name → Bool := fun _ => false

/-- hls/ngx_rtmp_hls_module.c:2415-2442: the age limit for a name, in seconds. -/
def maxAge (playlen : Nat) (name : Name) : Option Nat :=
  if 3 ≤ name.length ∧ name.drop (name.length - 3) = ['.', 't', 's'] then some (playlen / 500)
  else if 5 ≤ name.length ∧ name.drop (name.length - 5) = ['.', 'm', '3', 'u', '8'] then some (playlen / 1000)
  else if 4 ≤ name.length ∧ name.drop (name.length - 4) = ['.', 'k', 'e', 'y'] then some (playlen / 500)
  else none

/-- hls/ngx_rtmp_hls_module.c:2415-2447. -/
def old (w : World) (name : Name) (mtime : Nat) : Bool :=
  match maxAge w.playlen name with
  | none => false
  | some age => !decide (mtime + age > w.now)

mutual
/-- hls/ngx_rtmp_hls_module.c:2384-2463: one entry; `none`: it is deleted. A directory can be deleted if it is empty. -/
def cleanNode (w : World) (path : List Name) (name : Name) : Node → Option Node
  | .file t => if w.infoFails path then some (.file t) else if old w name t && !w.delFails path then none else some (.file t)
  | .other => some .other
  | .dir es =>
    if w.infoFails path then some (.dir es)
    else if w.openFails path then some (.dir es)
    else
      let r := cleanList w path es
      if r.2.1 - r.2.2 = 0 ∧ r.1.isEmpty = true ∧ w.delFails path = false then none else some (.dir r.1)

/-- hls/ngx_rtmp_hls_module.c:2344-2463: what is left, `nentries` and `nerased`. `readdir` is taken to return every entry once. -/
def cleanList (w : World) (path : List Name) : List (Name × Node) → List (Name × Node) × Nat × Nat
  | [] => ([], 0, 0)
  | (name, n) :: es =>
    let r := cleanList w path es
    if name.head? = some '.' then ((name, n) :: r.1, r.2)
    else match cleanNode w (name :: path) name n with
      | none => (r.1, r.2.1 + 1, r.2.2 + 1)
      | some n' => ((name, n') :: r.1, r.2.1 + 1, r.2.2)
end

/-- hls/ngx_rtmp_hls_module.c:2474: the configured directory. -/
def clean (w : World) (es : List (Name × Node)) : List (Name × Node) := if w.openFails [] then es else (cleanList w [] es).1

end Verif.HlsClean
