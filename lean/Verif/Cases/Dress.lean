import Verif.Cases.Listed
import Verif.Props.Dress
import Verif.Props.Files
/-!
# C109 at concrete sessions, and its limits
-/
namespace Verif

theorem sameShuffle_id : SameShuffle id id := by
  have key : ∀ l : List NRef, (List.range l.length).filterMap (l[·]?) = l := by
    intro l
    induction l using List.reverseRec with
    | nil => rfl
    | append_singleton l x ih =>
      rw [List.length_append, List.length_singleton, List.range_succ, List.filterMap_append]
      congr 1
      · refine (List.filterMap_congr fun i hi => ?_).trans ih
        exact List.getElem?_append_left (List.mem_range.1 hi)
      · simp
  intro l l' h
  exact ⟨List.range l.length, (key l).symm, by rw [h]; exact (key l').symm⟩

theorem sameShuffle_reverse : SameShuffle List.reverse List.reverse := by
  intro l l' h
  obtain ⟨p, h1, h2⟩ := sameShuffle_id l l' h
  refine ⟨p.reverse, ?_, ?_⟩
  · rw [List.filterMap_reverse, ← h1]; rfl
  · rw [List.filterMap_reverse, ← h2]; rfl

section
variable {C : Type}

/-- When the parts of a graph show the same styles, from finitely many comparisons. -/
theorem seenAlike_of {w w' : World C} (r : Reachable w.heap) (r' : Reachable w'.heap) {g g' : GRef} (hg : g < w.heap.nG) (hg' : g' < w'.heap.nG)
    (hd : w.display g = w'.display g')
    (hn : ∀ p ∈ (w.heap.graph g).nodes, ∀ q ∈ (w'.heap.graph g').nodes, p.1 = q.1 → nodeLook w p.2 = nodeLook w' q.2)
    (he : ∀ e ∈ List.range w.heap.nE, ∀ f ∈ List.range w'.heap.nE, (w.heap.edge e).graph = some g → (w'.heap.edge f).graph = some g' →
      edgeId w.heap e = edgeId w'.heap f → edgeLook w e = edgeLook w' f) : SeenAlike w g w' g' := by
  obtain ⟨L, K⟩ := C107_exists r hg
  obtain ⟨L', K'⟩ := C107_exists r' hg'
  obtain ⟨A, B⟩ := K.booked r hg
  obtain ⟨A', B'⟩ := K'.booked r' hg'
  refine ⟨hd, fun {k n n'} h1 h2 => ?_, fun {i e e'} h1 h2 => ?_⟩
  · refine hn (k, n) ?_ (k, n') ?_ rfl
    · rw [B.rep.nodes]; exact B.rep.getNode_key.1 h1
    · rw [B'.rep.nodes]; exact B'.rep.getNode_key.1 h2
  · obtain ⟨s, t, j⟩ := i
    have m := findEdge_mem B h1
    have m' := findEdge_mem B' h2
    obtain ⟨l1, -, o1, -⟩ := B.rep.edgeOk _ _ _ _ _ m
    obtain ⟨l2, -, o2, -⟩ := B'.rep.edgeOk _ _ _ _ _ m'
    exact he e (List.mem_range.2 l1) e' (List.mem_range.2 l2) o1 o2 (by rw [B.rep.edgeId_eq m, B'.rep.edgeId_eq m'])

end

/-! ## Two graphs that look alike -/

theorem OwnedSession.run {C : Type} [Palette C] [DecidableEq C] {w : World C} (s : OwnedSession w) {l : List (Call C)} (ok : CallsOk w l)
    (nr : ∀ c ∈ l, c.NoReadd) : OwnedSession (runCalls w l) := by
  induction l generalizing w with
  | nil => exact s
  | cons c l ih => exact ih (s.step c ok.1 (nr c (by simp))) ok.2 fun c hc => nr c (by simp [hc])

/-- Two graphs. The second one had a node more, and its edge was made twice. -/
def twinCalls : List (Call Rat) :=
  [.newGraph { scheme := some [0, 1 / 2], display := plainDisplay }, .newGraph { scheme := some [0, 1 / 2], display := plainDisplay },
   .addNode 0 (.str "a") { style := .dict [.colour (1 / 3)] }, .addNode 0 (.str "b") {}, .addNode 0 (.str "c") {},
   .connect 0 (.key (.str "a")) (.key (.str "b")) {}, .connect 0 (.key (.str "c")) (.key (.str "b")) { style := .dict [.colour 1] },
   .addNode 1 (.str "x") {}, .addNode 1 (.str "a") { style := .dict [.colour (1 / 3)] },
   .plain (.removeNode 1 (.key (.str "x"))), .addNode 1 (.str "b") {},
   .connect 1 (.key (.str "a")) (.key (.str "b")) {}, .addNode 1 (.str "c") {},
   .connect 1 (.key (.str "c")) (.key (.str "b")) { style := .dict [.colour 1] }]

def twinWorld : World Rat := runCalls World.init twinCalls

theorem twinWorld_tidy : TidySession twinWorld := by
  refine TidySession.init.run ?_ ?_ ?_
  · simp only [twinCalls, CallsOk]
    refine ⟨?_, ?_, ?_, ?_, ?_, ?_, ?_, ?_, ?_, ?_, ?_, ?_, ?_, ?_, trivial⟩
    case refine_10 =>
      refine ⟨fun op h => ?_, by simp [Call.graphs], by simp [Call.styles, Op.style], trivial⟩
      cases h
      exact ⟨by simp [Op.Plain, Op.style], show (1 : Nat) < Heap.nG _ from (by decide +kernel)⟩
    all_goals exact okCall (by simp) (by decide +kernel) (by simp [Call.styles, NodeStyleArg.plain, EdgeStyleArg.plain]) trivial
  · simp only [twinCalls, CallsPrivate]
    refine ⟨?_, ?_, ?_, ?_, ?_, ?_, ?_, ?_, ?_, ?_, ?_, ?_, ?_, ?_, trivial⟩ <;>
      exact ⟨by simp [Call.styles, NodeStyleArg.plain, EdgeStyleArg.plain, Op.style], by simp [Call.sources]⟩
  · simp [twinCalls, Call.NoReadd, Op.Readds]

def twinLedger : Ledger :=
  { nodes := [{ name := .str "a", notes := { styled := true } }, { name := .str "b" }, { name := .str "c" }],
    edges := [{ id := (.str "a", .str "b", .none) }, { id := (.str "c", .str "b", .none), notes := { styled := true } }] }

theorem twin_reads : Reads twinWorld.heap 0 twinLedger ∧ Reads twinWorld.heap 1 twinLedger :=
  ⟨⟨by decide +kernel, by decide +kernel, by decide +kernel, by decide +kernel, [0, 1], by decide, by decide +kernel, by decide +kernel, by decide +kernel⟩,
    by decide +kernel, by decide +kernel, by decide +kernel, by decide +kernel, [2, 3], by decide, by decide +kernel, by decide +kernel, by decide +kernel⟩

theorem twin_seen : SeenAlike twinWorld 0 twinWorld 1 :=
  seenAlike_of twinWorld_tidy.sound.reach twinWorld_tidy.sound.reach (by decide +kernel) (by decide +kernel) rfl
    (by decide +kernel) (by decide +kernel)

theorem twin_dressed : DressedAlike twinWorld 0 twinWorld 1 :=
  C109_tidy_partial twinWorld_tidy twinWorld_tidy (by decide +kernel) (by decide +kernel) twin_reads.1 twin_reads.2 twin_seen

example := C109_source (o := twinLedger.overwrite) twinWorld_tidy.sound.reach twinWorld_tidy.sound.reach (g := 0) (g' := 1) (by decide +kernel)
  (by decide +kernel) twin_reads.1 twin_reads.2 twin_seen {}
example := C109_draw_partial twinWorld_tidy.sound.reach twinWorld_tidy.sound.reach twinWorld_tidy.sound.made twinWorld_tidy.sound.made
  (g := 0) (g' := 1) (by decide +kernel) (by decide +kernel) twin_dressed someEngine sameShuffle_id (.stylize 10)
example := C109_draws_partial twinWorld_tidy.sound.reach twinWorld_tidy.sound.reach twinWorld_tidy.sound.made twinWorld_tidy.sound.made
  (g := 0) (g' := 1) (by decide +kernel) (by decide +kernel) twin_dressed someEngine
  (ds := [(.source {} none, id), (.stylize 10, List.reverse), (.render 10 none false {}, id)])
  (ds' := [(.source {} none, id), (.stylize 10, List.reverse), (.render 10 none false {}, id)])
  (.cons ⟨rfl, sameShuffle_id⟩ (.cons ⟨rfl, sameShuffle_reverse⟩ (.cons ⟨rfl, sameShuffle_id⟩ .nil)))
/-- The drawing succeeds, and styles what had no style. -/
example : ((Draw.render 10 none false {}).run someEngine id 0 twinWorld).1.isOk = true ∧
    (nodeLook ((Draw.render 10 none false {}).run someEngine id 0 twinWorld).2 2).isSome = true := by decide +kernel

/-- The graph of `againWorld`, made without a detour. -/
def straightCalls : List (Call Rat) :=
  [.newGraph { scheme := some [0, 1 / 2], display := plainDisplay }, .addNode 0 (.str "a") {}, .addNode 0 (.str "c") {}, .addNode 0 (.str "b") {},
   .connect 0 (.key (.str "a")) (.key (.str "c")) {}, .connect 0 (.key (.str "a")) (.key (.str "b")) {}]

def straightWorld : World Rat := runCalls World.init straightCalls

theorem straightWorld_owned : OwnedSession straightWorld := by
  refine OwnedSession.init.run ?_ ?_
  · simp only [straightCalls, CallsOk]
    refine ⟨?_, ?_, ?_, ?_, ?_, ?_, trivial⟩ <;>
      exact okCall (by simp) (by decide +kernel) (by simp [Call.styles, NodeStyleArg.plain, EdgeStyleArg.plain]) trivial
  · simp [straightCalls, Call.NoReadd]

def straightLedger : Ledger :=
  { nodes := [{ name := .str "a" }, { name := .str "c" }, { name := .str "b" }],
    edges := [{ id := (.str "a", .str "c", .none) }, { id := (.str "a", .str "b", .none) }] }

example : DressedAlike againWorld 0 straightWorld 0 :=
  C109_unstyled_partial againWorld_tidy.owned straightWorld_owned (by decide +kernel) (by decide +kernel) (L := straightLedger)
    ⟨by decide +kernel, by decide +kernel, by decide +kernel, by decide +kernel, [1, 2], by decide, by decide +kernel, by decide +kernel, by decide +kernel⟩
    ⟨by decide +kernel, by decide +kernel, by decide +kernel, by decide +kernel, [0, 1], by decide, by decide +kernel, by decide +kernel, by decide +kernel⟩
    rfl (by decide) (by decide)

/-! ## Limits -/

/-- Two graphs with the same two styled nodes and the same setting for one of them. In the first graph the two nodes have one style object. -/
def shareCalls : List (Call Rat) :=
  [.newGraph { scheme := some [], display := plainDisplay }, .newGraph { scheme := some [], display := plainDisplay },
   .addNode 0 (.str "a") { style := .dict [.colour 1] }, .addNode 0 (.str "b") { style := .obj 0 },
   .addNode 1 (.str "a") { style := .dict [.colour 1] }, .addNode 1 (.str "b") { style := .dict [.colour 1] },
   .append 0 { nodes := some (.list []), edges := some [], nodeStyles := [(.str "a", [.colour 0, .fill (some 0)])] },
   .append 1 { nodes := some (.list []), edges := some [], nodeStyles := [(.str "a", [.colour 0, .fill (some 0)])] }]

def shareWorld : World Rat := runCalls World.init shareCalls

theorem shareWorld_session : OwnedSession shareWorld := by
  refine OwnedSession.init.run ?_ ?_
  · simp only [shareCalls, CallsOk]
    refine ⟨?_, ?_, ?_, ?_, ?_, ?_, ?_, ?_, trivial⟩
    case refine_4 =>
      refine ⟨fun op h => (by cases h), by decide +kernel, fun s h => ?_, trivial⟩
      simp only [Call.styles, NodeStyleArg.plain, List.mem_singleton, StyleArg.obj.injEq] at h
      subst h
      exact show (0 : Nat) < Heap.nStyle _ from (by decide +kernel)
    all_goals exact okCall (by simp) (by decide +kernel) (by simp [Call.styles, NodeStyleArg.plain, GraphDict.styles, NodesEntry.specs]) trivial
  · simp [shareCalls, Call.NoReadd]

/-- **C109 is violated** where two nodes have one style object: graphs that look alike, styles and settings included, are drawn differently.
`graphvizStr` is the picture before `stylize`. -/
theorem C109_share_violated : ∃ w : World Rat, OwnedSession w ∧ (∃ L, Reads w.heap 0 L ∧ Reads w.heap 1 L) ∧ SeenAlike w 0 w 1 ∧
    graphvizStr w 0 {} = graphvizStr w 1 {} ∧ (render 10 id 0 {} w).1.isOk = true ∧ (render 10 id 1 {} w).1.isOk = true ∧
    (render 10 id 0 {} w).1 ≠ (render 10 id 1 {} w).1 := by
  have r := shareWorld_session.sound.reach
  have S : SeenAlike shareWorld 0 shareWorld 1 :=
    seenAlike_of r r (by decide +kernel) (by decide +kernel) rfl (by decide +kernel) (by decide +kernel)
  have K : Reads shareWorld.heap 0
      { nodes := [{ name := .str "a", notes := { styled := true } }, { name := .str "b", notes := { styled := true } }], edges := [] } :=
    ⟨by decide +kernel, by decide +kernel, by decide +kernel, by decide +kernel, [], by decide, by decide +kernel, by decide +kernel, by decide +kernel⟩
  have K' : Reads shareWorld.heap 1
      { nodes := [{ name := .str "a", notes := { styled := true } }, { name := .str "b", notes := { styled := true } }], edges := [] } :=
    ⟨by decide +kernel, by decide +kernel, by decide +kernel, by decide +kernel, [], by decide, by decide +kernel, by decide +kernel, by decide +kernel⟩
  exact ⟨shareWorld, shareWorld_session, ⟨_, K, K'⟩, S,
    (C109_source (o := false) r r (by decide +kernel) (by decide +kernel) K K' S {}).1, by decide +kernel, by decide +kernel, by decide +kernel⟩

/-- Colours on a line, with `increase_hue` a shift: enough to tell the child ranks apart. -/
structure Hue where
  at_ : Rat
  deriving DecidableEq

instance hues : Palette Hue where
  default := ⟨0⟩
  lighten c _ := c
  darken c _ := c
  invert c := ⟨-c.at_⟩
  farthestGray c := c
  hex c _ := toString c.at_
  increaseHue c x := ⟨c.at_ + x⟩
  scaleSaturation c _ := c
  mix cs := cs.headD ⟨0⟩
  pale c _ := c
  showNum q := toString q

/-- In both graphs the node x, which has a style, is removed and added back, so that it is the last node; p is connected to x and y. In
the first graph x was the first node at first. -/
def rankCalls0 : List (Call Hue) :=
  [.newGraph { scheme := some [⟨0⟩], display := { scheme := [] } }, .newGraph { scheme := some [⟨0⟩], display := { scheme := [] } },
   .addNode 0 (.str "x") { style := .dict [.colour ⟨5⟩] }, .addNode 0 (.str "p") {}, .addNode 0 (.str "y") {},
   .plain (.removeNode 0 (.key (.str "x")))]

def rankWorld0 : World Hue := (Call.plain (.addNodeObj 0 0)).step (runCalls World.init rankCalls0)

def rankCalls1 : List (Call Hue) :=
  [.connect 0 (.key (.str "p")) (.key (.str "x")) {}, .connect 0 (.key (.str "p")) (.key (.str "y")) {},
   .addNode 1 (.str "p") {}, .addNode 1 (.str "y") {}, .addNode 1 (.str "x") { style := .dict [.colour ⟨5⟩] },
   .plain (.removeNode 1 (.key (.str "x")))]

def rankWorld1 : World Hue := (Call.plain (.addNodeObj 1 5)).step (runCalls rankWorld0 rankCalls1)

def rankWorld : World Hue :=
  runCalls rankWorld1 [.connect 1 (.key (.str "p")) (.key (.str "x")) {}, .connect 1 (.key (.str "p")) (.key (.str "y")) {}]

/-- When a removed node may be added back, from finitely many comparisons. -/
theorem readd_ok {h : Heap} (r : Reachable h) {g : GRef} {n : NRef} (hg : g < h.nG) (hn : n < h.nN)
    (hm : ∀ g' ∈ List.range h.nG, ∀ p ∈ (h.graph g').nodes, p.2 ≠ n) : Op.Ok h (.addNodeObj g n) := by
  obtain ⟨A, H⟩ := r.hist
  refine ⟨hg, hn, fun _ g' k hk => ?_⟩
  by_cases hlt : g' < h.nG
  · exact absurd rfl (hm g' (List.mem_range.2 hlt) _ hk)
  · rw [H.rep.nodes, (H.rep.graphs g' (Nat.le_of_not_lt hlt)).1] at hk
    simp at hk

theorem rankWorld_private : PrivateSession rankWorld := by
  have rem : ∀ {w : World Hue} {g : GRef}, g < w.heap.nG → (Call.plain (.removeNode g (.key (.str "x")))).Ok w := by
    intro w g hg
    refine ⟨fun op h => ?_, by simp [Call.graphs], by simp [Call.styles, Op.style], trivial⟩
    cases h
    exact ⟨by simp [Op.Plain, Op.style], hg⟩
  have back : ∀ {w : World Hue} {g : GRef} {n : NRef}, Op.Ok w.heap (.addNodeObj g n) → (Call.plain (.addNodeObj g n)).Ok w := by
    intro w g n ho
    refine ⟨fun op h => ?_, by simp [Call.graphs], by simp [Call.styles, Op.style], trivial⟩
    cases h
    exact ⟨by simp [Op.Plain, Op.style], ho⟩
  have s0 : PrivateSession (runCalls World.init rankCalls0) := by
    refine PrivateSession.init.run ?_ ?_
    · refine ⟨?_, ?_, ?_, ?_, ?_, rem (by decide +kernel), trivial⟩ <;>
        exact okCall (by simp) (by decide +kernel) (by simp [Call.styles, NodeStyleArg.plain]) trivial
    · refine ⟨?_, ?_, ?_, ?_, ?_, ?_, trivial⟩ <;>
        exact ⟨by simp [Call.styles, NodeStyleArg.plain, Op.style], by simp [Call.sources]⟩
  have t0 : PrivateSession rankWorld0 :=
    s0.step _ (back (readd_ok s0.sound.reach (by decide +kernel) (by decide +kernel) (by decide +kernel)))
      ⟨by simp [Call.styles, Op.style], by simp [Call.sources]⟩
  have s1 : PrivateSession (runCalls rankWorld0 rankCalls1) := by
    refine t0.run ?_ ?_
    · refine ⟨?_, ?_, ?_, ?_, ?_, rem (by decide +kernel), trivial⟩ <;>
        exact okCall (by simp) (by decide +kernel) (by simp [Call.styles, NodeStyleArg.plain, EdgeStyleArg.plain]) trivial
    · refine ⟨?_, ?_, ?_, ?_, ?_, ?_, trivial⟩ <;>
        exact ⟨by simp [Call.styles, NodeStyleArg.plain, EdgeStyleArg.plain, Op.style], by simp [Call.sources]⟩
  have t1 : PrivateSession rankWorld1 :=
    s1.step _ (back (readd_ok s1.sound.reach (by decide +kernel) (by decide +kernel) (by decide +kernel)))
      ⟨by simp [Call.styles, Op.style], by simp [Call.sources]⟩
  refine t1.run ?_ ?_
  · refine ⟨?_, ?_, trivial⟩ <;>
      exact okCall (by simp) (by decide +kernel) (by simp [Call.styles, EdgeStyleArg.plain]) trivial
  · refine ⟨?_, ?_, trivial⟩ <;>
      exact ⟨by simp [Call.styles, EdgeStyleArg.plain], by simp [Call.sources]⟩

def rankLedger : Ledger :=
  { nodes := [{ name := .str "p" }, { name := .str "y" }, { name := .str "x", notes := { styled := true }, homeless := true }],
    edges := [{ id := (.str "p", .str "x", .none) }, { id := (.str "p", .str "y", .none) }] }

/-- **C109 is violated** where a node was removed and added back: `stylize` gives the node y of the one graph another colour than the node y
of the other, although the graphs look alike and no style object is shared. -/
theorem C109_order_violated : ∃ w : World Hue, PrivateSession w ∧ (∃ L, Reads w.heap 0 L ∧ Reads w.heap 1 L) ∧ SeenAlike w 0 w 1 ∧
    ∃ n m, getNode w.heap 0 (.key (.str "y")) = .ok n ∧ getNode w.heap 1 (.key (.str "y")) = .ok m ∧
    (stylize 10 id 0 w).1 = (stylize 10 id 1 w).1 ∧ nodeLook (stylize 10 id 0 w).2 n ≠ nodeLook (stylize 10 id 1 w).2 m := by
  have r := rankWorld_private.sound.reach
  refine ⟨rankWorld, rankWorld_private, ⟨rankLedger, ?_, ?_⟩, ?_, 2, 4, by decide +kernel, by decide +kernel, by decide +kernel, by decide +kernel⟩
  · exact ⟨by decide +kernel, by decide +kernel, by decide +kernel, by decide +kernel, [0, 1], by decide, by decide +kernel, by decide +kernel,
      by decide +kernel⟩
  · exact ⟨by decide +kernel, by decide +kernel, by decide +kernel, by decide +kernel, [2, 3], by decide, by decide +kernel, by decide +kernel,
      by decide +kernel⟩
  · exact seenAlike_of r r (by decide +kernel) (by decide +kernel) rfl (by decide +kernel) (by decide +kernel)

end Verif
