import Verif.Model.Graphviz
/-!
# `render` with a path, and `Graph.py`: what is handed to Graphviz, IPython and the file system
-/
namespace Verif
variable {C : Type}

/-- `os.path.splitext` of the standard library (on POSIX), used at `_GraphWithoutDisplay.py:727`: the extension is the last dot of
the last component with what follows, unless only dots precede it there. -/
def splitExt (p : List Char) : List Char × List Char :=
  let tail := p.reverse.takeWhile (fun c => c ≠ '.' && c ≠ '/')
  match p.reverse.dropWhile (fun c => c ≠ '.' && c ≠ '/') with
  | '.' :: front =>
    if (front.takeWhile (· ≠ '/')).any (· ≠ '.') then (front.reverse, '.' :: tail.reverse) else (p, [])
  | _ => (p, [])

/-- `Source(source=text).render(filename=name, view=view)`: what Graphviz is asked to save. `format` is the argument of that name
of `Source` and of `render`. `_GraphWithoutDisplay.py:728-732`, `768`. -/
structure Save where
  text : String
  name : String
  format : Option String
  view : Bool
  deriving DecidableEq, Repr

/-- The libraries, which may do and raise anything. `save` is `Source.render`, `reprSvg` is `Source._repr_svg_`, `pipe` is
`Source.pipe(format='svg')`, `ipython` is `from IPython.core.display import HTML`. Simplification: the exceptions of the libraries
are given as exceptions of `PyErr`. Used at `_GraphWithoutDisplay.py:732`, `768` and `Graph.py:7-11`, `44-45`. -/
structure Engine where
  save : Save → Except PyErr Unit
  reprSvg : String → Except PyErr String
  pipe : String → Except PyErr String
  ipython : Except PyErr Unit

section
variable [Palette C]

/-- `GraphWithoutDisplay.get_graphviz_source`, `_GraphWithoutDisplay.py:770-799`, and `_get_graphviz_source`,
`_GraphWithoutDisplay.py:755-768`: the text and the format of the `Source`. `output_format` is not used, and neither is `dpi`. -/
def graphvizSource (w : World C) (g : GRef) (a : DrawArgs) (_outputFormat : Option String) : Except PyErr (String × Option String) :=
  if a.height = none ∧ a.width = none then do
    let s ← graphvizStr w g { direction := a.direction, pad := a.pad }
    .ok (s, none)
  else do
    let s ← graphvizStr w g { direction := a.direction, height := a.height, width := a.width, pad := a.pad }
    .ok (s, none)

/-- `GraphWithoutDisplay.render`, `_GraphWithoutDisplay.py:695-733`. Besides the text of the `Source` that is returned, the result
lists what was saved. -/
def renderTo [DecidableEq C] (E : Engine) (lim : Nat) (shuffle : List NRef → List NRef) (g : GRef) (path : Option String) (view : Bool)
    (a : DrawArgs) : W C (String × List Save) := do
  let d ← W.display g
  let direction := directionOr d a.direction
  stylize lim shuffle g
  match path with
  | none => do
    let src ← W.ask (fun w => graphvizSource w g { direction := some direction, pad := a.pad } none)
    return (src.1, [])
  | some p => do
    let split := splitExt p.toList
    let outputFormat := String.ofList (split.2.dropWhile (· = '.'))
    let toSave ← W.ask (fun w => graphvizSource w g { a with direction := some direction } (some outputFormat))
    let s : Save := { text := toSave.1, name := String.ofList split.1, format := toSave.2, view := view }
    W.ask (fun _ => E.save s)
    let src ← W.ask (fun w => graphvizSource w g { direction := some direction, pad := a.pad } none)
    return (src.1, [s])

omit [Palette C] in
/-- `Graph._get_svg`, `Graph.py:6-11`. -/
def svgOf (E : Engine) (src : String) : Except PyErr String :=
  match E.reprSvg src with
  | .error .attributeError => E.pipe src
  | r => r

/-- `Graph.get_svg`, `Graph.py:13-26`; `path`, `view`, `a.height` and `a.width` are in `**kwargs`. -/
def getSvg [DecidableEq C] (E : Engine) (lim : Nat) (shuffle : List NRef → List NRef) (g : GRef) (path : Option String) (view : Bool)
    (a : DrawArgs) : W C (String × List Save) := do
  let d ← W.display g
  let r ← renderTo E lim shuffle g path view { a with direction := some (directionOr d a.direction) }
  let s ← W.ask (fun _ => svgOf E r.1)
  return (s, r.2)

/-- `Graph._repr_html_`, `Graph.py:28-30`: what a notebook shows. -/
def reprHtml [DecidableEq C] (E : Engine) (lim : Nat) (shuffle : List NRef → List NRef) (g : GRef) : W C (String × List Save) :=
  getSvg E lim shuffle g none true {}

/-- `Graph.get_html`, `Graph.py:32-45`: the text in the `HTML` object. -/
def getHtml [DecidableEq C] (E : Engine) (lim : Nat) (shuffle : List NRef → List NRef) (g : GRef) (path : Option String) (view : Bool)
    (a : DrawArgs) : W C (String × List Save) := do
  W.ask (fun _ => E.ipython)
  let d ← W.display g
  getSvg E lim shuffle g path view { a with direction := some (directionOr d a.direction) }

end
end Verif
