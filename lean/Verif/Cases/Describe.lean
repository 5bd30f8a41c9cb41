import Verif.Props.Describe
import Verif.Cases.Sessions
/-!
# Cases for C112
-/
namespace Verif

/-- What graph 0 of the gallery looks like. -/
def galleryLedger : Ledger :=
  { overwrite := some true,
    nodes := [{ name := .str "a", notes := { styled := true } }, { name := .str "b" }],
    edges := [{ id := (.str "a", .str "b", .none), notes := { styled := true } }] }

theorem gallery_reads : Reads gallery.heap 0 galleryLedger :=
  ⟨by decide +kernel, by decide +kernel, by decide +kernel, by decide +kernel, [0], by decide, by decide +kernel, by decide +kernel, by decide +kernel⟩

/-- It has a node that is there already, one that is new, and settings. -/
def goodDict : GraphDict Rat :=
  { strict := some true, label := some (.str "text"), nodes := some (.dict [(.str "b", { value := .int 4 }), (.str "c", { style := .dict [.colour 1] })]),
    edges := some [.two (.str "a") (.str "b"), .three (.str "c") (.str "a") { label := .int 1 }],
    nodeStyles := [(.str "nobody", [.colour 0])], edgeColours := [.pair (.str "c") (.str "a") 1] }

/-- The second edge is wrong; nothing after it is done. -/
def badDict : GraphDict Rat :=
  { ordering := some false, nodes := some (.list [.str "x", .str "a"]),
    edges := some [.two (.str "x") (.str "a"), .few, .two (.str "a") (.str "x")] }

example : galleryLedger.append true goodDict = (.ok (),
    { strict := true, overwrite := some true,
      nodes := [{ name := .str "a", notes := { styled := true } }, { name := .str "b", notes := { value := .int 4 } },
                { name := .str "c", notes := { styled := true } }],
      edges := [{ id := (.str "a", .str "b", .none), notes := { styled := true } },
                { id := (.str "c", .str "a", .none), notes := { label := .int 1 } }] }) := by decide +kernel
example : galleryLedger.append true badDict = (.error (.valueError "Too few objects in an edge definition!"),
    { ordering := false, overwrite := some true,
      nodes := [{ name := .str "a", notes := { styled := true } }, { name := .str "b" }, { name := .str "x" }],
      edges := [{ id := (.str "a", .str "b", .none), notes := { styled := true } }, { id := (.str "x", .str "a", .none) }] }) := by decide +kernel
/-- Settings for an edge that the dictionary does not have, for a graph without display attributes, and a label that is a number. -/
example : (galleryLedger.append true { goodDict with edgeColours := [.pair (.str "a") (.str "c") 1] }).1 = .error .keyError ∧
    (galleryLedger.append false goodDict).1 = .error .attributeError ∧
    galleryLedger.append true { goodDict with label := some (.int 1) } = (.error .typeError, { galleryLedger with strict := true }) ∧
    (galleryLedger.append true { goodDict with edges := none }).1 = .error .keyError := by decide +kernel

example (D : GraphDict Rat) := C112_append gallery_tidy.sound.reach (g := 0) (by decide +kernel) gallery_reads D
example := C112_new gallery_tidy.sound.reach { scheme := some [0], display := plainDisplay }
example := C112_dict gallery_tidy.sound.reach { scheme := some [0], display := plainDisplay }
  { goodDict with nodes := some (.list [.str "a", .str "b", .str "c"]) }
example : (graphOfDict { scheme := some [0], display := plainDisplay }
  { goodDict with nodes := some (.list [.str "a", .str "b", .str "c"]) } gallery).1.isOk = true := by decide +kernel

/-- A program: also on graph 1, drawing it, and copying graph 0. -/
def galleryPlays : List (Play Rat) :=
  [.append goodDict, .other (.render 10 id 1 {}), .deed (.nodeValue (.str "c") (.int 3)), .append badDict,
   .nodeStyle (.str "b") (.dict [.colour 0]), .other (.copy 0), .edgeStyle (.str "c", .str "b", .none) .none, .addNode (.str "y") {},
   .connect (.str "y") (.str "x") { id := some (.int 2) }, .other (.append 1 badDict), .deed (.removeNode (.str "a"))]

theorem galleryPlays_ok : PlaysOk 0 galleryPlays gallery := by
  simp only [galleryPlays, PlaysOk, Play.Fits]
  refine ⟨?_, ⟨?_, ?_⟩, trivial, ?_, ?_, ⟨?_, ?_⟩, ?_, ?_, ?_, ⟨?_, ?_⟩, trivial, trivial⟩
  case refine_3 => simp [Call.on]
  case refine_7 => simp [Call.on]
  case refine_12 => simp [Call.on]
  case refine_5 => simp [NodeStyleArg.plain]
  case refine_8 => simp [EdgeStyleArg.plain]
  case refine_2 => exact okCall (by simp) (by decide +kernel) (by simp [Call.styles]) (fun _ => .refl _)
  all_goals
    exact okCall (by simp) (by decide +kernel)
      (by simp [Call.styles, NodeStyleArg.plain, EdgeStyleArg.plain, GraphDict.styles, goodDict, badDict, NodesEntry.specs, EdgeEntry.spec]) trivial

example := C112_program gallery_tidy.owned.session (g := 0) (by decide +kernel) gallery_reads galleryPlays galleryPlays_ok
example : (galleryLedger.playAll true galleryPlays).1 =
    [.ok (), .ok (), .ok (), .error (.valueError "Too few objects in an edge definition!"), .ok (), .ok (), .error .keyError, .ok (), .ok (), .ok (), .ok ()] ∧
    (galleryLedger.playAll true galleryPlays).2 =
      { strict := true, ordering := false, overwrite := some true,
        nodes := [{ name := .str "b", notes := { value := .int 4, styled := true } }, { name := .str "c", notes := { value := .int 3, styled := true } },
                  { name := .str "x" }, { name := .str "y" }],
        edges := [{ id := (.str "y", .str "x", .key (.int 2)) }] } := by decide +kernel

def firstPlays : List (Play Rat) := [.append { goodDict with nodes := some (.list [.str "a", .str "b", .str "c"]) }, .append badDict]

example := C112_from_new gallery_tidy.owned.session { scheme := some [0], display := plainDisplay } firstPlays (by
  simp only [firstPlays, PlaysOk, Play.Fits]
  refine ⟨?_, ?_, trivial⟩ <;>
    exact okCall (by simp) (by decide +kernel)
      (by simp [Call.styles, NodeStyleArg.plain, EdgeStyleArg.plain, GraphDict.styles, goodDict, badDict, NodesEntry.specs, EdgeEntry.spec]) trivial)

/-- Drawing graph 1 of a session in which styles were passed on. -/
example := C96_objects duoWorld_private.session (c := .stylize 10 id 1)
  (okCall (by simp) (by decide +kernel) (by simp [Call.styles]) (fun _ => .refl _)) (g := 0) (by decide +kernel) (by simp [Call.on])

end Verif
