import Verif.Props.StyleShown
/-!
# C111 at concrete styles, with grey levels for colours
-/
namespace Verif

example : (NodeStyle.make { colour := some (1 / 2 : Rat) }).attributes =
    [("color", "5/12"), ("fillcolor", "3/4"), ("fontname", "helvetica"), ("fontcolor", "0"), ("fontsize", "10"), ("shape", "box"),
     ("style", "rounded, filled")] := by
  rw [C111_node_shown]; decide +kernel

example : (NodeStyle.make { colour := none, border := some (1 / 2 : Rat), text := some 1, lighter := false, font := none, opacity := some 1 }).attributes =
    [("color", "1/2"), ("fillcolor", "1/4"), ("fontcolor", "1"), ("fontsize", "10"), ("opacity", "1"), ("shape", "box"),
     ("style", "rounded, filled")] := by
  rw [C111_node_shown]; decide +kernel

example : (EdgeStyle.make { colour := none, text := some (1 / 2 : Rat), lineWidth := none }).attributes =
    [("color", "1/2"), ("fontname", "helvetica"), ("fontcolor", "1/2"), ("fontsize", "8"), ("arrowsize", "1/2"), ("lblstyle", "below")] := by
  rw [C111_edge_shown]; decide +kernel

/-- The assigned colour is not that of the node, so there was something to show. -/
example : ((NodeStyle.make { colour := some (1 / 2 : Rat) }).setColour 1).attributes ≠ (NodeStyle.make { colour := some (1 : Rat) }).attributes := by
  rw [(C111_recolour_violated _ _).2, C111_node_shown, C111_node_shown]; decide +kernel

example : ((NodeStyle.make { colour := some (1 / 2 : Rat) }).resetColours.setColour 1).attributes =
    (NodeStyle.make { colour := some (1 : Rat) }).attributes := by
  rw [C111_node_reset, C111_node_shown]

example : ((NodeStyle.make { colour := some (1 / 2 : Rat) }).setFill (some 0)).attributes =
    [("color", "5/12"), ("fillcolor", "0"), ("fontname", "helvetica"), ("fontcolor", "0"), ("fontsize", "10"), ("shape", "box"),
     ("style", "rounded, filled")] := by
  rw [(C111_node_assigned _ _).1]; decide +kernel

example : ((EdgeStyle.make { colour := some (1 / 2 : Rat) }).setColour 0).attributes =
    [("color", "0"), ("fontname", "helvetica"), ("fontcolor", "1/2"), ("fontsize", "8"), ("arrowsize", "1/2"), ("lblstyle", "below"),
     ("penwidth", "1")] := by
  rw [(C111_edge_assigned _ _).1]; decide +kernel

end Verif
