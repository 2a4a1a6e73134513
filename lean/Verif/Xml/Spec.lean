/-
A reader of XML (XML 1.0, fifth edition) for documents of elements and attributes. It takes less than the standard: no character data but white space, no comments, no references, quotes are `"`, no
space around `=`, names of letters, digits and `._-:`. It knows nothing of any program.
-/
namespace Verif.Xml

abbrev Text := List Char

/-- Opened, an attribute, the end of an opening tag, the same for an empty element, closed -/
inductive Tok where
  | opens (name : Text)
  | attr (key value : Text)
  | ends
  | empty
  | closes (name : Text)
  deriving DecidableEq

/-- Where the reader is: at the start, after the first `<`, in the declaration, after its `?`, between tags, after `<`, in the name of a tag, in a tag after white space, in the name of an attribute,
behind its `=`, in a value, after a value, after `/`, in the name of a closing tag, behind it. What has been read of a name or a value is in reverse. -/
inductive St where
  | start
  | first
  | decl
  | declEnd
  | content
  | lt
  | name (acc : Text)
  | tag
  | key (acc : Text)
  | eq (key : Text)
  | value (key acc : Text)
  | after
  | slash
  | close (acc : Text)
  | closed (name : Text)
  deriving DecidableEq

def isSpace (c : Char) : Bool := c == ' ' || c == '\n' || c == '\t' || c == '\r'
def isStart (c : Char) : Bool := c.isAlpha || c == '_' || c == ':'
def isName (c : Char) : Bool := c.isAlphanum || c == '_' || c == ':' || c == '-' || c == '.'

/-- A character; `none` if the document is not well-formed -/
def step : St → Char → Option (St × List Tok)
  | .start, c => if c == '<' then some (.first, []) else if isSpace c then some (.content, []) else none
  | .first, c => if c == '?' then some (.decl, []) else if isStart c then some (.name [c], []) else none
  | .decl, c => if c == '?' then some (.declEnd, []) else if c == '<' then none else some (.decl, [])
  | .declEnd, c => if c == '>' then some (.content, []) else none
  | .content, c => if c == '<' then some (.lt, []) else if isSpace c then some (.content, []) else none
  | .lt, c => if c == '/' then some (.close [], []) else if isStart c then some (.name [c], []) else none
  | .name a, c =>
    if isName c then some (.name (c :: a), []) else if isSpace c then some (.tag, [.opens a.reverse])
    else if c == '>' then some (.content, [.opens a.reverse, .ends]) else if c == '/' then some (.slash, [.opens a.reverse]) else none
  | .tag, c => if isSpace c then some (.tag, []) else if isStart c then some (.key [c], []) else if c == '>' then some (.content, [.ends]) else if c == '/' then some (.slash, []) else none
  | .key a, c => if isName c then some (.key (c :: a), []) else if c == '=' then some (.eq a.reverse, []) else none
  | .eq k, c => if c == '"' then some (.value k [], []) else none
  | .value k a, c => if c == '"' then some (.after, [.attr k a.reverse]) else if c == '<' || c == '&' then none else some (.value k (c :: a), [])
  | .after, c => if isSpace c then some (.tag, []) else if c == '>' then some (.content, [.ends]) else if c == '/' then some (.slash, []) else none
  | .slash, c => if c == '>' then some (.content, [.empty]) else none
  | .close a, c => if (a == [] && isStart c) || (a != [] && isName c) then some (.close (c :: a), []) else if c == '>' then some (.content, [.closes a.reverse]) else if isSpace c then some (.closed a.reverse, []) else none
  | .closed n, c => if isSpace c then some (.closed n, []) else if c == '>' then some (.content, [.closes n]) else none

def lex : St → Text → Option (St × List Tok)
  | s, [] => some (s, [])
  | s, c :: r => (step s c).bind fun x => (lex x.1 r).map fun y => (y.1, x.2 ++ y.2)

/-- An element -/
inductive Node where
  | el (name : Text) (attrs : List (Text × Text)) (kids : List Node)

/-- An element that is not closed yet -/
structure Frame where
  name : Text
  attrs : List (Text × Text) := []
  kids : List Node := []

/-- Elements that are not closed yet, the innermost first, and the root if it is closed -/
structure Tree where
  stack : List Frame := []
  root : Option Node := none

def shut (f : Frame) (fs : List Frame) (root : Option Node) : Option Tree :=
  match fs with
  | [] => if root.isNone then some ⟨[], some (.el f.name f.attrs f.kids)⟩ else none
  | g :: gs => some ⟨{ g with kids := g.kids ++ [.el f.name f.attrs f.kids] } :: gs, root⟩

/-- Tags have to match (3, element type match), an attribute is there at most once (3.1, unique att spec). -/
def grow (t : Tree) (tok : Tok) : Option Tree :=
  match tok, t.stack with
  | .opens n, fs => some ⟨{ name := n } :: fs, t.root⟩
  | .attr k v, f :: fs => if f.attrs.any (·.1 == k) then none else some ⟨{ f with attrs := f.attrs ++ [(k, v)] } :: fs, t.root⟩
  | .ends, _ :: _ => some t
  | .empty, f :: fs => shut f fs t.root
  | .closes n, f :: fs => if f.name == n then shut f fs t.root else none
  | _, [] => none

def growAll : Tree → List Tok → Option Tree
  | t, [] => some t
  | t, x :: r => (grow t x).bind fun t => growAll t r

/-- The root of a document -/
def read (t : Text) : Option Node :=
  (lex .start t).bind fun x => if x.1 = .content then (growAll {} x.2).bind fun y => if y.stack.isEmpty then y.root else none else none

def Node.name : Node → Text
  | .el n _ _ => n

def Node.attr : Node → Text → Option Text
  | .el _ as _, k => (as.find? (·.1 == k)).map (·.2)

def Node.kids : Node → List Node
  | .el _ _ ks => ks

end Verif.Xml
