import Verif.Model.Traverse
/-!
# The tree string of one node
-/
namespace Verif

/-- `node.get_tree_str()`, called without arguments, `Node.py:275-311`: no indentation, nothing added yet. -/
def nodeTreeStr (lim : Nat) (h : Heap) (n : NRef) : Except PyErr String :=
  (treeStrRec h lim n "" []).map (·.1)

end Verif
