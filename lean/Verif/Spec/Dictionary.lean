import Verif.Model.Dictionary
import Verif.Spec.Settings
/-!
# What a dictionary says about the picture

Uses only the arguments of `append` (`GraphDict`) and the attributes of a graph (`Display`).
-/
namespace Verif
variable {C : Type}

/-- The last value for a key in a list of settings, applied one after the other. -/
def lastFor {K V : Type} [DecidableEq K] (l : List (K × V)) (k : K) : Option V := (l.reverse.find? fun p => p.1 = k).map (·.2)

/-- The edges a dictionary describes: the names of the two ends, and the id. -/
def GraphDict.described (D : GraphDict C) : List ((Key × Key) × EdgeId) :=
  (D.edges.getD []).filterMap fun x =>
    match x with
    | .two s t => some ((s, t), (s, t, .none))
    | .three s t a => some ((s, t), (s, t, match a.id with
      | none => .none
      | some k => .key k))
    | .few => none
    | .many => none

/-- The colours a list of settings asks for. A pair of names stands for the last edge described between the two. -/
def GraphDict.coloursOf (D : GraphDict C) (l : List (EdgeSetting C)) : List (EdgeId × C) :=
  l.filterMap fun x =>
    match x with
    | .pair s t c => (lastFor D.described (s, t)).map fun i => (i, c)
    | .other => none

/-- All the settings in a dictionary are dictionaries, with every key once. -/
structure GraphDict.Dicts (D : GraphDict C) : Prop where
  globalNode : ∀ l, (D.globalNode <|> D.graphNode) = some (some l) → NodeDict l
  globalEdge : ∀ l, (D.globalEdge <|> D.graphEdge) = some (some l) → EdgeDict l
  nodeStyles : ∀ p ∈ D.nodeStyles, NodeDict p.2

/-- All entries for the edge with the id `i`. -/
def entriesFor (l : List (Key × Key × EdgeSpec C)) (i : EdgeId) : List (EdgeSpec C) :=
  (l.filter fun q => decide ((q.1, q.2.1, q.2.2.raw) = i)).map fun q => q.2.2

/-- Several entries for an edge as one: the first with the other values added to its own one after the other, its first label
that is not empty, and its first style that is not empty. -/
def combine (f : Val → Val → Except PyErr Val) (a : EdgeSpec C) : List (EdgeSpec C) → Except PyErr (EdgeSpec C)
  | [] => .ok a
  | b :: l =>
    match f a.value b.value with
    | .error e => .error e
    | .ok v => combine f
        { a with
          value := v
          label := if a.label.truthy then a.label else b.label
          style := match a.style with
            | .none => b.style
            | .dict [] => b.style
            | s => s } l

end Verif
