/-!
# Reading a Graphviz source

The part of the DOT language that is needed to say what a source denotes: its quoted strings, its tokens, its statements.
It is written from the documentation of the language, not from the program that writes the source. What is left out makes
the reader reject more sources: comments, concatenation of strings with `+`, ports, edge chains `a -> b -> c`, named
subgraphs and repeated attribute lists. Two simplifications: words (names without quotes) are maximal runs of letters,
digits, dots and underscores, and a carriage return is an ordinary character.
-/
namespace Verif

/-! ## Quoted strings -/

/-- Read the rest of a quoted string, after its opening quote, and what follows it. `esc` says that the last character was
a backslash with a meaning of its own. Inside quotes `\"` is a quote, a backslash at the end of a line joins it with the
next one, and every other backslash stays, together with the character after it. -/
def readQuoted : Bool → List Char → Option (List Char × List Char)
  | _, [] => none
  | false, c :: cs =>
    if c = '"' then some ([], cs)
    else if c = '\\' then readQuoted true cs
    else (readQuoted false cs).map fun p => (c :: p.1, p.2)
  | true, c :: cs =>
    if c = '"' then (readQuoted false cs).map fun p => ('"' :: p.1, p.2)
    else if c = '\n' then readQuoted false cs
    else (readQuoted false cs).map fun p => ('\\' :: c :: p.1, p.2)

/-- The number of backslashes at the end. -/
def endSlashes (s : List Char) : Nat := (s.reverse.takeWhile (· = '\\')).length

/-- Every run of backslashes in front of a quote, in front of the end of a line or at the end of the text is even. -/
def Quotable (s : List Char) : Prop :=
  ∀ a b, s = a ++ b → (b = [] ∨ b.head? = some '"' ∨ b.head? = some '\n') → endSlashes a % 2 = 0

/-- May be put between quotes as it is. -/
def Plain (s : List Char) : Prop := '"' ∉ s ∧ Quotable s

/-! ## Tokens -/

/-- A name or a value: plain text, with or without quotes, or HTML. -/
inductive DotText where
  | plain (s : String)
  | html (s : String)
  deriving DecidableEq, Repr

inductive DotTok where
  | word (s : String)
  | text (t : DotText)
  | arrow
  | lbrace
  | rbrace
  | lbrack
  | rbrack
  | eq
  | semi
  | comma
  deriving DecidableEq, Repr

/-- Where the reader of the characters is: between tokens, in a word, in quotes, behind a backslash in quotes, behind a
minus, in HTML with a number of open brackets. -/
inductive LexMode where
  | idle
  | word (acc : List Char)
  | quoted (acc : List Char)
  | slash (acc : List Char)
  | dash
  | html (depth : Nat) (acc : List Char)
  deriving DecidableEq

def isBlank (c : Char) : Bool := c = ' ' ∨ c = '\t' ∨ c = '\n' ∨ c = '\r'

def isWordChar (c : Char) : Bool := c.isAlphanum || c = '_' || c = '.' || decide (128 ≤ c.toNat)

/-- The first character of a token. -/
def lexStart (c : Char) : Option (List DotTok × LexMode) :=
  if isBlank c then some ([], .idle)
  else if c = '"' then some ([], .quoted [])
  else if c = '<' then some ([], .html 0 [])
  else if c = '-' then some ([], .dash)
  else if c = '{' then some ([.lbrace], .idle)
  else if c = '}' then some ([.rbrace], .idle)
  else if c = '[' then some ([.lbrack], .idle)
  else if c = ']' then some ([.rbrack], .idle)
  else if c = '=' then some ([.eq], .idle)
  else if c = ';' then some ([.semi], .idle)
  else if c = ',' then some ([.comma], .idle)
  else if isWordChar c then some ([], .word [c])
  else none

/-- One character: the tokens that end there. -/
def lexStep : LexMode → Char → Option (List DotTok × LexMode)
  | .idle, c => lexStart c
  | .word acc, c =>
    if isWordChar c then some ([], .word (acc ++ [c]))
    else (lexStart c).map fun p => (.word (String.ofList acc) :: p.1, p.2)
  | .quoted acc, c =>
    if c = '"' then some ([.text (.plain (String.ofList acc))], .idle)
    else if c = '\\' then some ([], .slash acc)
    else some ([], .quoted (acc ++ [c]))
  | .slash acc, c =>
    if c = '"' then some ([], .quoted (acc ++ ['"']))
    else if c = '\n' then some ([], .quoted acc)
    else some ([], .quoted (acc ++ ['\\', c]))
  | .dash, c =>
    if c = '>' then some ([.arrow], .idle)
    else if c.isDigit || c = '.' then some ([], .word ['-', c])
    else none
  | .html depth acc, c =>
    if c = '<' then some ([], .html (depth + 1) (acc ++ [c]))
    else if c = '>' then
      match depth with
      | 0 => some ([.text (.html (String.ofList acc))], .idle)
      | d + 1 => some ([], .html d (acc ++ [c]))
    else some ([], .html depth (acc ++ [c]))

/-- The tokens of a source. -/
def lexFrom : LexMode → List Char → Option (List DotTok)
  | .idle, [] => some []
  | .word acc, [] => some [.word (String.ofList acc)]
  | _, [] => none
  | m, c :: cs => (lexStep m c).bind fun p => (lexFrom p.2 cs).map (p.1 ++ ·)

/-! ## Statements -/

abbrev DotAttrs := List (String × DotText)

/-- What stands between the outer braces; inner braces are items of their own. -/
inductive DotItem where
  | node (name : String) (attrs : DotAttrs)
  | edge (a b : String) (attrs : DotAttrs)
  | defaults (kind : String) (attrs : DotAttrs)
  | assign (key : String) (value : DotText)
  | opening
  | closing
  deriving DecidableEq, Repr

def isKeyword (s : String) : Bool :=
  String.ofList (s.toList.map Char.toLower) ∈ ["strict", "graph", "digraph", "node", "edge", "subgraph"]

/-- An `ID` of the language. -/
def dotId : DotTok → Option DotText
  | .word s => if isKeyword s then none else some (.plain s)
  | .text t => some t
  | _ => none

/-- An `ID` that names something. -/
def dotName (t : DotTok) : Option String :=
  match dotId t with
  | some (.plain s) => some s
  | _ => none

/-- `a_list : ID '=' ID [ (';' | ',') ] [ a_list ]`, up to the closing bracket. `sep` says that a separator may come. -/
def dotAttrs : Bool → List DotTok → Option (DotAttrs × List DotTok)
  | _, .rbrack :: r => some ([], r)
  | true, .comma :: r => dotAttrs false r
  | true, .semi :: r => dotAttrs false r
  | _, k :: .eq :: v :: r => do
    let k ← dotName k
    let v ← dotId v
    let p ← dotAttrs true r
    some ((k, v) :: p.1, p.2)
  | _, _ => none

/-- `[ attr_list ]` -/
def dotOptAttrs : List DotTok → Option (DotAttrs × List DotTok)
  | .lbrack :: r => dotAttrs false r
  | r => some ([], r)

/-- `stmt : node_stmt | edge_stmt | attr_stmt | ID '=' ID` -/
def dotStmt : List DotTok → Option (DotItem × List DotTok)
  | .word s :: .lbrack :: r =>
    if s = "graph" ∨ s = "node" ∨ s = "edge" then (dotAttrs false r).map fun p => (.defaults s p.1, p.2)
    else (dotName (.word s)).bind fun a => (dotAttrs false r).map fun p => (.node a p.1, p.2)
  | a :: .eq :: b :: r => do
    let a ← dotName a
    let b ← dotId b
    some (.assign a b, r)
  | a :: .arrow :: b :: r => do
    let a ← dotName a
    let b ← dotName b
    let p ← dotOptAttrs r
    some (.edge a b p.1, p.2)
  | a :: r => do
    let a ← dotName a
    let p ← dotOptAttrs r
    some (.node a p.1, p.2)
  | [] => none

/-- `stmt_list : [ stmt [ ';' ] stmt_list ]` and `subgraph : '{' stmt_list '}'`, up to the last brace. -/
def dotBody : Nat → Nat → List DotTok → Option (List DotItem)
  | 0, _, _ => none
  | _ + 1, _, [] => none
  | fuel + 1, depth, t :: r =>
    if t = .rbrace then
      match depth with
      | 0 => if r = [] then some [] else none
      | d + 1 => (dotBody fuel d r).map (.closing :: ·)
    else if t = .lbrace then (dotBody fuel (depth + 1) r).map (.opening :: ·)
    else if t = .semi then dotBody fuel depth r
    else do
      let p ← dotStmt (t :: r)
      let is ← dotBody fuel depth p.2
      some (p.1 :: is)

structure DotGraph where
  strict : Bool
  items : List DotItem
  deriving DecidableEq, Repr

def DotItem.nodeName : DotItem → Option String
  | .node a _ => some a
  | _ => none

def DotItem.ends : DotItem → Option (String × String)
  | .edge a b _ => some (a, b)
  | _ => none

def DotItem.setting (key : String) : DotItem → Option DotText
  | .assign k v => if k = key then some v else none
  | _ => none

/-- The names in the node statements. -/
def DotGraph.nodeNames (p : DotGraph) : List String := p.items.filterMap DotItem.nodeName

/-- The ends in the edge statements. -/
def DotGraph.arrows (p : DotGraph) : List (String × String) := p.items.filterMap DotItem.ends

/-- The values in the assignments to `key`, as in `rankdir="LR"`. -/
def DotGraph.settings (p : DotGraph) (key : String) : List DotText := p.items.filterMap (DotItem.setting key)

/-- `graph : [ strict ] digraph [ ID ] '{' stmt_list '}'` -/
def dotGraph : List DotTok → Option DotGraph
  | .word "strict" :: .word "digraph" :: .word _ :: .lbrace :: r =>
    (dotBody (r.length + 1) 0 r).map fun is => ⟨true, is⟩
  | .word "digraph" :: .word _ :: .lbrace :: r => (dotBody (r.length + 1) 0 r).map fun is => ⟨false, is⟩
  | _ => none

/-- What a source denotes. -/
def readDot (s : String) : Option DotGraph := (lexFrom .idle s.toList).bind dotGraph

end Verif
