import Verif.Model.Session
/-!
# Calls that take something away, and calls that put something in
-/
namespace Verif

/-- `remove_node`, `disconnect` and `remove_self`: the calls that take nodes or edges away. -/
def Op.Removes : Op → Prop
  | .removeNode _ _ => True
  | .disconnect _ => True
  | .removeSelf _ => True
  | _ => False

/-- `add_node` with a name or a node object, and `connect` in its three forms: the calls that put nodes or edges in. -/
def Op.Adds : Op → Prop
  | .addNode _ _ _ _ => True
  | .addNodeObj _ _ => True
  | .connect _ _ _ _ _ => True
  | .connectTo _ _ _ _ => True
  | .connectFrom _ _ _ _ => True
  | _ => False

/-- The same for the calls of a session: `append`, `+`, `filter`, `copy`, `stylize` and `render` are none of the calls that take
something away, nor are the ways to make a graph. -/
def Call.Removes {C : Type} : Call C → Prop
  | .plain op => op.Removes
  | _ => False

/-- The calls of a session that put nodes or edges in: besides those of `Op.Adds`, `append` with a dictionary or a graph. -/
def Call.Adds {C : Type} : Call C → Prop
  | .plain op => op.Adds
  | .addNode _ _ _ => True
  | .connect _ _ _ _ => True
  | .connectTo _ _ _ => True
  | .connectFrom _ _ _ => True
  | .append _ _ => True
  | .appendGraph _ _ => True
  | _ => False

end Verif
