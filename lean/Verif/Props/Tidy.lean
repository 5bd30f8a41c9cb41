import Verif.Props.Elsewhere
/-!
# C97: from the calls to the picture

The theorems about single calls have hypotheses on the state. Here they are put together for whole sessions.
-/
namespace Verif
open Palette
variable {C : Type} [Palette C] [DecidableEq C]

theorem TidySession.run {w : World C} (s : TidySession w) {l : List (Call C)} (ok : CallsOk w l) (pr : CallsPrivate w l)
    (nr : ∀ c ∈ l, c.NoReadd) : TidySession (runCalls w l) := by
  induction l generalizing w with
  | nil => exact s
  | cons c l ih => exact ih (s.step c ok.1 pr.1 (nr c (by simp))) ok.2 pr.2 fun c h => nr c (by simp [h])

/-- In a session in which no node object is given to `add_node` and no style object passed on, the hypotheses on the state of the
theorems about styling and drawing hold. -/
theorem C97_hypotheses {w : World C} (s : TidySession w) :
    Reachable w.heap ∧ Made w.heap ∧ Apart w.heap ∧ AllFull w ∧ ∀ g, ∀ n ∈ graphNodes w.heap g, (w.heap.node n).graph = some g := by
  obtain ⟨r, F, full⟩ := C79_sessions s.owned.session
  exact ⟨r, F, s.sound.apart trivial, full, s.sound.known trivial⟩

/-- **C97**, for sessions in which no node object is given to `add_node`, and texts that Graphviz can read: the picture of a rendered
graph shows every node of the graph once, in their order, and one arrow for every edge, from its start to its end.
Missing for the full property: the other texts (C45), and nodes that were removed and added again, which cannot be drawn
(`C85_readded_violated`). -/
theorem C97_shows_partial {w w' : World C} (s : OwnedSession w) {g : GRef} {d : Display C} (hd : w.display g = some d)
    {lim : Nat} {shuffle : List NRef → List NRef} {a : DrawArgs} {src : String} (hok : render lim shuffle g a w = (.ok src, w'))
    (D : Drawable w' g d (renderArgs d a)) :
    ∃ (p : DotGraph) (es : List ERef), readDot src = some p ∧ p.strict = (w.heap.graph g).strict ∧
      p.nodeNames.map Key.str = dkeys (w.heap.graph g).nodes ∧ p.nodeNames.Nodup ∧
      es.Nodup ∧ (∀ e, e ∈ es ↔ LiveEdge w.heap g e) ∧
      List.Forall₂ (fun e q => ∃ n m, edgeStart w.heap e = .ok n ∧ edgeEnd w.heap e = .ok m ∧
        (w.heap.node n).id = .str q.1 ∧ (w.heap.node m).id = .str q.2) es p.arrows := by
  obtain ⟨r, F, -⟩ := C79_sessions s.session
  have hown := C12_session_partial s g
  obtain ⟨d', hd', hs, hg⟩ := render_ok hok
  rw [hd] at hd'
  cases hd'
  have q := (Silent.stylize (C := C) lim shuffle g).quiet F hs
  obtain ⟨src', p, es, h1, h2, h3, h4, h5, h6, h7, h8⟩ := C44_statements_partial (q.reach r) (d := d) (by rw [q.display]; exact hd)
    (by intro n hn; rw [← q.shape.graphNodes] at hn; rw [← q.shape.nodeGraph]; exact hown n hn) D
  rw [hg] at h1
  cases h1
  have hgr : w'.heap.graph g = w.heap.graph g := congrFun (congrArg (fun h => h.graph) q.shape : (strip w.heap).graph = _).symm g
  have hid : ∀ n, (w'.heap.node n).id = (w.heap.node n).id := fun n => (congrArg NodeObj.id (congrFun (congrArg Heap.node q.shape) n)).symm
  obtain ⟨A, H⟩ := r.hist
  refine ⟨p, es, h2, by rw [h3, hgr], ?_, h5, h6, fun e => by rw [h7, q.shape.liveEdge], ?_⟩
  · rw [h4, ← q.shape.graphNodes]
    unfold graphNodes dvals dkeys
    rw [List.map_map]
    refine List.map_congr_left fun x hx => ?_
    rw [H.rep.nodes] at hx
    simp only [Function.comp_def, hid, (H.rep.nodeOk g x.1 x.2 hx).2.1]
  · refine h8.imp fun e x ⟨n, m, a1, a2, a3, a4⟩ => ?_
    have he := (congrFun (congrArg Heap.edge q.shape) e)
    have b1 : (w'.heap.edge e).start = (w.heap.edge e).start := (congrArg EdgeObj.start he).symm
    have b2 : (w'.heap.edge e).stop = (w.heap.edge e).stop := (congrArg EdgeObj.stop he).symm
    exact ⟨n, m, by simpa only [edgeStart, b1] using a1, by simpa only [edgeEnd, b2] using a2, by rw [← hid]; exact a3, by rw [← hid]; exact a4⟩

/-- **C97**: with permission to overwrite, rendering once more gives the same picture. -/
theorem C97_again_partial {w w' : World C} (s : TidySession w) {g : GRef} (ho : (w.heap.graph g).overwrite = some true)
    {lim : Nat} {shuffle : List NRef → List NRef} (hsh : ∀ l, (shuffle l).Perm l) {a : DrawArgs} {src : String}
    (hok : render lim shuffle g a w = (.ok src, w')) : ∃ w'', render lim shuffle g a w' = (.ok src, w'') := by
  obtain ⟨r, F, ap, full, hown⟩ := C97_hypotheses s
  exact C49_render_partial hsh F r (hown g) ap full ho hok

/-- **C97**: what `render` returned stays the source of the graph through any list of calls on other graphs. -/
theorem C97_lasting_partial {w w' : World C} (s : PrivateSession w) {g : GRef} (hg : g < w.heap.nG) {d : Display C}
    (hd : w.display g = some d) {lim : Nat} {shuffle : List NRef → List NRef} (hsh : ∀ l, (shuffle l).Perm l) {a : DrawArgs}
    {src : String} (hok : render lim shuffle g a w = (.ok src, w')) {l : List (Call C)} (ok : CallsOk w' l) (pr : CallsPrivate w' l)
    (hno : NoCallOn g w' l) : graphvizStr (runCalls w' l) g (renderArgs d a) = .ok src := by
  have okr : (Call.render lim shuffle g a : Call C).Ok w := okCall (by simp) (by simpa [Call.graphs] using hg) (by simp [Call.styles]) hsh
  have prr : (Call.render lim shuffle g a : Call C).Private w := ⟨by simp [Call.styles], by simp [Call.sources]⟩
  have hw' : (Call.render lim shuffle g a : Call C).step w = w' := congrArg Prod.snd hok
  have s' := s.step _ okr prr
  have hn := s.sound.call_more _ okr (fun _ => prr) (fun h => h.elim)
  rw [hw'] at s' hn
  obtain ⟨d', hd', -, h⟩ := render_ok hok
  rw [hd] at hd'
  cases hd'
  rw [C96_calls_partial s' ok pr (Nat.lt_of_lt_of_le hg hn) hno]
  exact h

end Verif
