import Verif.Spec.Ledger
import Verif.Spec.Paint
import Verif.Model.Render
/-!
# Graphs that look alike, styles included
-/
namespace Verif
variable {C : Type}

/-- The settings of the picture are the same; nodes of the same name show the same style, and so do edges of the same id. -/
structure SeenAlike (w : World C) (g : GRef) (w' : World C) (g' : GRef) : Prop where
  display : w.display g = w'.display g'
  node : ∀ {k n n'}, getNode w.heap g (.key k) = .ok n → getNode w'.heap g' (.key k) = .ok n' → nodeLook w n = nodeLook w' n'
  edge : ∀ {i e e'}, findEdge w.heap g i = .ok e → findEdge w'.heap g' i = .ok e' → edgeLook w e = edgeLook w' e'

/-- The graphs look alike, with their options, styles and settings; nodes compare alike; and where two nodes or two edges of the one
graph share a style object, so do those of the other graph. -/
structure DressedAlike (w : World C) (g : GRef) (w' : World C) (g' : GRef) : Prop extends SeenAlike w g w' g' where
  text : ∃ L, Reads w.heap g L ∧ Reads w'.heap g' L
  order : ∀ {k j n n' m m'}, getNode w.heap g (.key k) = .ok n → getNode w'.heap g' (.key k) = .ok n' →
    getNode w.heap g (.key j) = .ok m → getNode w'.heap g' (.key j) = .ok m' → nodeLt w.heap n m = nodeLt w'.heap n' m'
  nodeShare : ∀ {k j n n' m m'}, getNode w.heap g (.key k) = .ok n → getNode w'.heap g' (.key k) = .ok n' →
    getNode w.heap g (.key j) = .ok m → getNode w'.heap g' (.key j) = .ok m' →
    ((w.heap.node n).style = (w.heap.node m).style ↔ (w'.heap.node n').style = (w'.heap.node m').style)
  edgeShare : ∀ {i j e e' f f'}, findEdge w.heap g i = .ok e → findEdge w'.heap g' i = .ok e' →
    findEdge w.heap g j = .ok f → findEdge w'.heap g' j = .ok f' →
    ((w.heap.edge e).style = (w.heap.edge f).style ↔ (w'.heap.edge e').style = (w'.heap.edge f').style)

/-- The two shuffles pick the same positions: `random.shuffle` after the same `random.seed`. -/
def SameShuffle (sh sh' : List NRef → List NRef) : Prop :=
  ∀ l l' : List NRef, l.length = l'.length → ∃ p : List Nat, sh l = p.filterMap (l[·]?) ∧ sh' l' = p.filterMap (l'[·]?)

/-- A call that styles or draws a graph; `lim` is the recursion limit. -/
inductive Draw where
  | stylize (lim : Nat)
  | source (a : DrawArgs) (format : Option String)
  | render (lim : Nat) (path : Option String) (view : Bool) (a : DrawArgs)
  | svg (lim : Nat) (path : Option String) (view : Bool) (a : DrawArgs)
  | html (lim : Nat) (path : Option String) (view : Bool) (a : DrawArgs)

section
variable [Palette C] [DecidableEq C]

/-- What the call returns and saves. `I` stands for the Graphviz program, `sh` for `random.shuffle`. -/
def Draw.run (I : Engine) (sh : List NRef → List NRef) (g : GRef) : Draw → W C (String × List Save)
  | .stylize lim => do Verif.stylize lim sh g; return ("", [])
  | .source a f => do let r ← W.ask (fun w => graphvizSource w g a f); return (r.1, [])
  | .render lim path view a => renderTo I lim sh g path view a
  | .svg lim path view a => getSvg I lim sh g path view a
  | .html lim path view a => getHtml I lim sh g path view a

/-- One drawing after the other, whatever they raise, each with its own shuffle; what they return, and the world at the end. -/
def runDraws (I : Engine) (g : GRef) : List (Draw × (List NRef → List NRef)) → World C → List (Except PyErr (String × List Save)) × World C
  | [], w => ([], w)
  | (d, sh) :: ds, w =>
    ((d.run I sh g w).1 :: (runDraws I g ds (d.run I sh g w).2).1, (runDraws I g ds (d.run I sh g w).2).2)

end

/-- The same drawings, with shuffles that pick the same positions. -/
def SameDraws (ds ds' : List (Draw × (List NRef → List NRef))) : Prop :=
  List.Forall₂ (fun p q => p.1 = q.1 ∧ SameShuffle p.2 q.2) ds ds'

end Verif
