import Verif.Spec.Ledger
import Verif.Model.Session
/-!
# Describing a graph with a dictionary

What `append(dictionary)` does to a graph, as what it does to the ledger of the graph (`Spec/Ledger.lean`): it sets the options
that the dictionary mentions, does one deed after the other, and stops at the first exception. What was done until then stays
done.
-/
namespace Verif
variable {C : Type} [Palette C]

/-- The one thing after the other, unless the first raises. -/
def Ledger.andThen (r : After1 Ledger) (f : Ledger → After1 Ledger) : After1 Ledger :=
  match r with
  | (.error e, L) => (.error e, L)
  | (.ok _, L) => f L

/-- The deeds one after the other, until the first raises. -/
def Ledger.upTo : List Deed → Ledger → After1 Ledger
  | [], L => (.ok (), L)
  | d :: ds, L => Ledger.andThen (L.run d) (upTo ds)

omit [Palette C] in
/-- A label must be a string. -/
def GraphDict.labelFails (D : GraphDict C) : Except PyErr Unit :=
  match D.label with
  | none => .ok ()
  | some (.str _) => .ok ()
  | some _ => .error .typeError

/-- Nodes: an `add_node` for each. -/
def NodesEntry.deeds : NodesEntry C → List Deed
  | .dict l => l.map fun p => .addNode p.1 p.2.args p.2.policy
  | .list l => l.map fun x => .addNode x {} .warn

/-- An edge: a `connect`, if it has two names, and maybe a dictionary. -/
def EdgeEntry.deed : EdgeEntry C → Except PyErr Deed
  | .two s t => .ok (.connect s t {} .warn)
  | .three s t a => .ok (.connect s t a.args a.policy)
  | .few => .error (.valueError "Too few objects in an edge definition!")
  | .many => .error (.valueError "Too many objects in an edge definition!")

/-- The edges one after the other, until the first raises. -/
def Ledger.upToEdge : List (EdgeEntry C) → Ledger → After1 Ledger
  | [], L => (.ok (), L)
  | x :: xs, L =>
    match x.deed with
    | .error e => (.error e, L)
    | .ok d => Ledger.andThen (L.run d) (upToEdge xs)

/-- The names of the two ends. -/
def EdgeEntry.pair? : EdgeEntry C → Option (Key × Key)
  | .two s t => some (s, t)
  | .three s t _ => some (s, t)
  | _ => none

omit [Palette C] in
/-- What settings for nodes raise. `shown`: the graph has display attributes (a copy has none). -/
def nodeSettingsFail {α : Type} (shown : Bool) (l : List α) : Except PyErr Unit :=
  if l.isEmpty || shown then .ok () else .error .attributeError

omit [Palette C] in
/-- What settings for edges raise: they are for edges of the same dictionary. -/
def edgeSettingsFail (shown : Bool) (pairs : List (Key × Key)) : List (EdgeSetting C) → Except PyErr Unit
  | [] => .ok ()
  | .pair s t _ :: l =>
    if (s, t) ∈ pairs then if shown then edgeSettingsFail shown pairs l else .error .attributeError
    else .error .keyError
  | .other :: _ => .error .keyError

/-- `append(D)`. -/
def Ledger.append (shown : Bool) (D : GraphDict C) (L : Ledger) : After1 Ledger :=
  let L := { L with strict := D.strict.getD L.strict, ordering := D.ordering.getD L.ordering }
  Ledger.andThen (D.labelFails, L) fun L =>
  match D.nodes with
  | none => (.error .keyError, L)
  | some N => Ledger.andThen (Ledger.upTo N.deeds L) fun L =>
    match D.edges with
    | none => (.error .keyError, L)
    | some es => Ledger.andThen (Ledger.upToEdge es L) fun L =>
      let pairs := es.filterMap EdgeEntry.pair?
      (do nodeSettingsFail shown D.nodeStyles
          edgeSettingsFail shown pairs D.edgeStyles
          nodeSettingsFail shown D.nodeColours
          edgeSettingsFail shown pairs D.edgeColours, L)

/-! ## Programs -/

/-- A step of a program: something done with the graph in question, or any other call. -/
inductive Play (C : Type) where
  /-- A call without a style. -/
  | deed (d : Deed)
  | addNode (x : Key) (a : NodeSpec C)
  | connect (s t : Key) (a : EdgeSpec C)
  /-- `g.get_node(k).style = s` -/
  | nodeStyle (k : Key) (s : NodeStyleArg C)
  | edgeStyle (i : EdgeId) (s : EdgeStyleArg C)
  | append (D : GraphDict C)
  | other (c : Call C)

/-- What it does with graph `g`. -/
def Play.run [DecidableEq C] (g : GRef) : Play C → W C Unit
  | .deed d => W.lift (d.run g)
  | .addNode x a => do let _ ← addNodeW g x a
  | .connect s t a => do let _ ← connectW g s t a
  | .nodeStyle k s => do
    let n ← W.ask (fun w => getNode w.heap g (.key k))
    withNodeStyle s (nodeSetStyle n)
  | .edgeStyle i s => do
    let e ← W.ask (fun w => findEdge w.heap g i)
    withEdgeStyle s (edgeSetStyle e)
  | .append D => appendDictW g D
  | .other c => fun w => (.ok (), c.step w)

/-- What it does to the ledger of the graph. -/
def Ledger.play (shown : Bool) (L : Ledger) : Play C → After1 Ledger
  | .deed d => L.run d
  | .addNode x a => L.run (.addNode x a.args a.policy)
  | .connect s t a => L.run (.connect s t a.args a.policy)
  | .nodeStyle k s => L.run (.nodeStyle k s.plain)
  | .edgeStyle i s => L.run (.edgeStyle i s.plain)
  | .append D => L.append shown D
  | .other _ => (.ok (), L)

/-- Run a program, whatever the steps raise; and what they raise. -/
def runPlays [DecidableEq C] (g : GRef) : List (Play C) → World C → List (Except PyErr Unit) × World C
  | [], w => ([], w)
  | p :: ps, w => ((p.run g w).1 :: (runPlays g ps (p.run g w).2).1, (runPlays g ps (p.run g w).2).2)

def Ledger.playAll (shown : Bool) : List (Play C) → Ledger → List (Except PyErr Unit) × Ledger
  | [], L => ([], L)
  | p :: ps, L => ((L.play shown p).1 :: (playAll shown ps (L.play shown p).2).1, (playAll shown ps (L.play shown p).2).2)

end Verif
