import Verif.Spec.Dress
import Verif.Lemmas.PosePaint
import Verif.Lemmas.Quiet
import Verif.Props.Answers
import Verif.Props.Listed
/-!
# C109: graphs that look alike are painted and drawn alike
-/
namespace Verif
open List (Forall₂)
variable {C : Type}

/-- The ledger without the marks for styles. -/
def Ledger.bare (L : Ledger) : Ledger :=
  { L with nodes := L.nodes.map fun v => { v with notes := { v.notes with styled := false } },
           edges := L.edges.map fun v => { v with notes := { v.notes with styled := false } } }

theorem SameBody.rep {h h' : Heap} {A : Spec} (S : SameBody h h') (R : Rep h A) : Rep h' A :=
  R.congr (fun g => by rw [S.graph]) (fun n => (S.nodeId n).symm) (fun n => (S.nodeGraph n).symm)
    (fun n => (S.via (fun h => (h.node n).outE) fun _ => rfl).symm) (fun n => (S.via (fun h => (h.node n).inE) fun _ => rfl).symm)
    (fun e => ⟨(S.edgeGraph e).symm, (S.via (fun h => (h.edge e).raw) fun _ => rfl).symm,
      (S.via (fun h => (h.edge e).start) fun _ => rfl).symm, (S.via (fun h => (h.edge e).stop) fun _ => rfl).symm⟩)
    (S.via (·.nN) fun _ => rfl).symm (S.via (·.nE) fun _ => rfl).symm (S.via (·.nG) fun _ => rfl).symm

theorem Booked.bare {h : Heap} {A : Spec} {g : GRef} {L : Ledger} (B : Booked h A g L) : Booked (strip h) A g L.bare where
  rep := SameBody.rep (h := h) (show strip h = strip (strip h) from rfl) B.rep
  lt := B.lt
  strict := B.strict
  ordering := B.ordering
  overwrite := B.overwrite
  nodes := by
    rw [Ledger.bare, ← B.nodes, List.map_map]
    rfl
  edges := by
    rw [Ledger.bare, ← B.edges, List.map_map]
    rfl

theorem frame {h h' : Heap} {A A' : Spec} {g g' : GRef} {L : Ledger} {o : Option Bool} (B : Booked h A g L)
    (B' : Booked h' A' g' { L with overwrite := o }) : Frame (strip h) g (strip h') g' (SameName A g A' g') (SameId A g A' g') where
  twin := twin B.bare B'.bare ⟨rfl, rfl⟩
  homes := twin_homes B.bare B'.bare rfl
  one := by
    rintro n n' m m' ⟨k, hn, hn'⟩ ⟨j, hm, hm'⟩
    rw [(nodeEq_iff B.rep hn hm).2.2, (nodeEq_iff B'.rep hn' hm').2.2]
  edgeHome := by
    rintro e e' ⟨i, he, he'⟩
    exact ⟨B.rep.edge_graph he, B'.rep.edge_graph he'⟩
  notes := by
    rintro e e' ⟨i, he, he'⟩
    have h1 := (twin B.bare B'.bare ⟨rfl, rfl⟩).entry ⟨i, he, he'⟩
    simp only [edgeEntry, B.bare.rep.edgeId_eq he, B'.bare.rep.edgeId_eq he', bind, Except.bind] at h1
    exact congrArg EdgeL.notes (Except.ok.inj h1)
  strict := B.strict.trans B'.strict.symm
  ordering := B.ordering.trans B'.ordering.symm

/-- What `SeenAlike` says in terms of the abstract graphs. -/
theorem SeenAlike.look {w w' : World C} {g g' : GRef} {A A' : Spec} {L L' : Ledger} (S : SeenAlike w g w' g') (B : Booked w.heap A g L)
    (B' : Booked w'.heap A' g' L') :
    Look (strip w.heap) g (strip w'.heap) g' (SameName A g A' g') (SameId A g A' g') w w' where
  body := rfl
  body' := rfl
  display := S.display
  node := by
    rintro n n' ⟨k, hn, hn'⟩
    exact S.node (B.rep.getNode_key.2 hn) (B'.rep.getNode_key.2 hn')
  edge := by
    rintro e e' ⟨i, he, he'⟩
    exact S.edge (B.findEdge_ok he) (B'.findEdge_ok he')

theorem DressedAlike.pose {w w' : World C} {g g' : GRef} {A A' : Spec} {L : Ledger} (S : DressedAlike w g w' g')
    (B : Booked w.heap A g L) (B' : Booked w'.heap A' g' L) (F : Made w.heap) (F' : Made w'.heap) :
    Pose (strip w.heap) g (strip w'.heap) g' (SameName A g A' g') (SameId A g A' g') w w' where
  toLook := S.toSeenAlike.look B B'
  made := F
  made' := F'
  may := B.overwrite.trans B'.overwrite.symm
  less := by
    rintro n n' m m' ⟨k, hn, hn'⟩ ⟨j, hm, hm'⟩
    exact S.order (B.rep.getNode_key.2 hn) (B'.rep.getNode_key.2 hn') (B.rep.getNode_key.2 hm) (B'.rep.getNode_key.2 hm')
  shareN := by
    rintro n n' m m' ⟨k, hn, hn'⟩ ⟨j, hm, hm'⟩
    exact S.nodeShare (B.rep.getNode_key.2 hn) (B'.rep.getNode_key.2 hn') (B.rep.getNode_key.2 hm) (B'.rep.getNode_key.2 hm')
  shareE := by
    rintro n n' m m' ⟨k, hn, hn'⟩ ⟨j, hm, hm'⟩
    exact S.edgeShare (B.findEdge_ok hn) (B'.findEdge_ok hn') (B.findEdge_ok hm) (B'.findEdge_ok hm')

/-- The ledger that is read off. -/
def ledgerOf (h : Heap) (A : Spec) (g : GRef) : Ledger :=
  { strict := (h.graph g).strict, ordering := (h.graph g).ordering, overwrite := (h.graph g).overwrite,
    nodes := (A.graph g).nodes.map fun p => nodeEntry h p.2, edges := (A.graph g).edges.map (entryAs h) }

theorem booked_of {h : Heap} {A : Spec} {g : GRef} (R : Rep h A) (hg : g < h.nG) : Booked h A g (ledgerOf h A g) :=
  ⟨R, hg, rfl, rfl, rfl, rfl, rfl⟩

theorem isSome_of_map {α : Type} {o o' : Option SRef} {f f' : SRef → α} (h : o.map f = o'.map f') : o.isSome = o'.isSome := by
  cases o <;> cases o' <;> simp at h ⊢

/-- And back. -/
theorem Pose.dressed {h h' : Heap} {v v' : World C} {g g' : GRef} {A A' : Spec} {L : Ledger} (B : Booked h A g L) (B' : Booked h' A' g' L)
    (P : Pose (strip h) g (strip h') g' (SameName A g A' g') (SameId A g A' g') v v') : DressedAlike v g v' g' := by
  have R := SameBody.rep (h := h) (h' := v.heap) P.body.symm B.rep
  have R' := SameBody.rep (h := h') (h' := v'.heap) P.body'.symm B'.rep
  have F := frame (o := L.overwrite) B B'
  have hG : h.nG = v.heap.nG := SameBody.via (h := h) (h' := v.heap) P.body.symm (·.nG) fun _ => rfl
  have hG' : h'.nG = v'.heap.nG := SameBody.via (h := h') (h' := v'.heap) P.body'.symm (·.nG) fun _ => rfl
  have V := booked_of R (g := g) (hG ▸ B.lt)
  have V' := booked_of R' (g := g') (hG' ▸ B'.lt)
  have keys : (A.graph g).nodes.map Prod.fst = (A'.graph g').nodes.map Prod.fst := by
    have h1 := B.names
    have h2 := B'.names
    rw [h1] at h2
    exact h2
  have ids : (A.graph g).edges.map Prod.fst = (A'.graph g').edges.map Prod.fst := by
    have h1 := B.ids
    have h2 := B'.ids
    rw [h1] at h2
    exact h2
  have same : ledgerOf v.heap A g = ledgerOf v'.heap A' g' := by
    have hnodes : (A.graph g).nodes.map (fun p => nodeEntry v.heap p.2) = (A'.graph g').nodes.map (fun p => nodeEntry v'.heap p.2) := by
      refine Forall₂.map_eq (forall₂_keys keys) ?_
      rintro ⟨i, n⟩ ⟨j, n'⟩ ⟨h2, h3, h4⟩
      simp only at h2
      subst h2
      have e1 := B.find_node h3
      rw [B'.find_node h4] at e1
      have e2 := P.node ⟨i, h3, h4⟩
      have e3 := isSome_of_map e2
      have o1 : ∀ {α : Type} (q : NodeObj → α), (∀ o : NodeObj, q { o with style := none } = q o) → q (v.heap.node n) = q (h.node n) := fun q hq =>
        SameBody.via (h := v.heap) (h' := h) P.body (fun h => q (h.node n)) fun h => hq _
      have o2 : ∀ {α : Type} (q : NodeObj → α), (∀ o : NodeObj, q { o with style := none } = q o) → q (v'.heap.node n') = q (h'.node n') := fun q hq =>
        SameBody.via (h := v'.heap) (h' := h') P.body' (fun h => q (h.node n')) fun h => hq _
      simp only [nodeEntry, nodeNotes, Option.some.injEq, NodeL.mk.injEq, Notes.mk.injEq] at e1 ⊢
      rw [o1 (·.id) fun _ => rfl, o1 (·.value) fun _ => rfl, o1 (·.label) fun _ => rfl, o1 (·.tooltip) fun _ => rfl, o1 (·.params) fun _ => rfl,
        o1 (·.frozen) fun _ => rfl, o1 (·.graph) fun _ => rfl, o2 (·.id) fun _ => rfl, o2 (·.value) fun _ => rfl, o2 (·.label) fun _ => rfl,
        o2 (·.tooltip) fun _ => rfl, o2 (·.params) fun _ => rfl, o2 (·.frozen) fun _ => rfl, o2 (·.graph) fun _ => rfl]
      obtain ⟨a1, ⟨a2, a3, a4, a5, a6, -⟩, a7⟩ := e1
      exact ⟨a1.symm, ⟨a2.symm, a3.symm, a4.symm, a5.symm, a6.symm, e3⟩, a7.symm⟩
    have hedges : (A.graph g).edges.map (entryAs v.heap) = (A'.graph g').edges.map (entryAs v'.heap) := by
      refine Forall₂.map_eq (forall₂_keys ids) ?_
      rintro ⟨i, n⟩ ⟨j, n'⟩ ⟨h2, h3, h4⟩
      simp only at h2
      subst h2
      have e1 : edgeNotes h n = edgeNotes h' n' := by
        refine lookup_alike (B.rep.idsNodup g) (f := edgeNotes h) (f' := edgeNotes h') ?_ h3 h4
        have h1 := congrArg (List.map fun v : EdgeL => (v.id, v.notes)) (B.edges.trans B'.edges.symm)
        simpa only [List.map_map, Function.comp_def, entryAs] using h1
      have e2 := P.edge ⟨i, h3, h4⟩
      have e3 := isSome_of_map e2
      have o1 : ∀ {α : Type} (q : EdgeObj → α), (∀ o : EdgeObj, q { o with style := none } = q o) → q (v.heap.edge n) = q (h.edge n) := fun q hq =>
        SameBody.via (h := v.heap) (h' := h) P.body (fun h => q (h.edge n)) fun h => hq _
      have o2 : ∀ {α : Type} (q : EdgeObj → α), (∀ o : EdgeObj, q { o with style := none } = q o) → q (v'.heap.edge n') = q (h'.edge n') := fun q hq =>
        SameBody.via (h := v'.heap) (h' := h') P.body' (fun h => q (h.edge n')) fun h => hq _
      simp only [entryAs, edgeNotes, EdgeL.mk.injEq, Notes.mk.injEq, true_and] at e1 ⊢
      rw [o1 (·.value) fun _ => rfl, o1 (·.label) fun _ => rfl, o1 (·.tooltip) fun _ => rfl, o1 (·.params) fun _ => rfl,
        o1 (·.frozen) fun _ => rfl, o2 (·.value) fun _ => rfl, o2 (·.label) fun _ => rfl,
        o2 (·.tooltip) fun _ => rfl, o2 (·.params) fun _ => rfl, o2 (·.frozen) fun _ => rfl]
      exact ⟨e1.1, e1.2.1, e1.2.2.1, e1.2.2.2.1, e1.2.2.2.2.1, e3⟩
    unfold ledgerOf
    rw [hnodes, hedges, ← SameBody.graph (h := h) (h' := v.heap) P.body.symm, ← SameBody.graph (h := h') (h' := v'.heap) P.body'.symm,
      B.strict, B.ordering, B.overwrite, B'.strict, B'.ordering, B'.overwrite]
  have toName : ∀ {k n n'}, getNode v.heap g (.key k) = .ok n → getNode v'.heap g' (.key k) = .ok n' → SameName A g A' g' n n' :=
    fun h1 h2 => ⟨_, R.getNode_key.1 h1, R'.getNode_key.1 h2⟩
  have toId : ∀ {i e e'}, findEdge v.heap g i = .ok e → findEdge v'.heap g' i = .ok e' → SameId A g A' g' e e' := by
    intro i e e' h1 h2
    have key : ∀ {h : Heap} {A : Spec} {g : GRef} {L : Ledger} (_ : Booked h A g L) {e : ERef}, findEdge h g i = .ok e → (i, e) ∈ (A.graph g).edges := by
      intro h A g L B e he
      by_cases hi : i ∈ L.ids
      · obtain ⟨f, hf⟩ := B.mem_ids.1 hi
        rw [B.findEdge_ok hf] at he
        cases he
        exact hf
      · rw [B.findEdge_none hi] at he
        cases he
    exact ⟨i, key V h1, key V' h2⟩
  exact {
    display := P.display
    node := fun h1 h2 => P.node (toName h1 h2)
    edge := fun h1 h2 => P.edge (toId h1 h2)
    text := ⟨_, V.reads, same ▸ V'.reads⟩
    order := fun h1 h2 h3 h4 => by
      have := P.less (toName h1 h2) (toName h3 h4)
      rw [← P.body, ← P.body', Strip.nodeLt, Strip.nodeLt] at this
      exact this
    nodeShare := fun h1 h2 h3 h4 => P.shareN (toName h1 h2) (toName h3 h4)
    edgeShare := fun h1 h2 h3 h4 => P.shareE (toId h1 h2) (toId h3 h4) }

theorem SameShuffle.rel {T : NRef → NRef → Prop} {sh sh' : List NRef → List NRef} (H : SameShuffle sh sh') :
    ∀ l l', Forall₂ T l l' → Forall₂ T (sh l) (sh' l') := by
  intro l l' hl
  obtain ⟨p, h1, h2⟩ := H l l' hl.length_eq
  rw [h1, h2]
  clear h1 h2
  induction p with
  | nil => exact .nil
  | cons i p ih =>
    by_cases hi : i < l.length
    · have hi' : i < l'.length := hl.length_eq ▸ hi
      simp only [List.filterMap_cons, List.getElem?_eq_getElem hi, List.getElem?_eq_getElem hi']
      exact .cons (List.forall₂_iff_get.1 hl |>.2 i hi hi') ih
    · have hi' : ¬ i < l'.length := hl.length_eq ▸ hi
      simp only [List.filterMap_cons, List.getElem?_eq_none (Nat.le_of_not_lt hi), List.getElem?_eq_none (Nat.le_of_not_lt hi')]
      exact ih

section
variable [Palette C] [DecidableEq C]

omit [DecidableEq C] in
/-- **C109**: the Graphviz sources of two graphs that look alike, styles and settings included, are equal, character by character; if one
raises, so does the other. Whether styles may be overwritten, the order of the nodes and the sharing of style objects do not matter. -/
theorem C109_source {w w' : World C} (r : Reachable w.heap) (r' : Reachable w'.heap) {g g' : GRef} (hg : g < w.heap.nG)
    (hg' : g' < w'.heap.nG) {L : Ledger} {o : Option Bool} (K : Reads w.heap g L) (K' : Reads w'.heap g' { L with overwrite := o })
    (S : SeenAlike w g w' g') (a : DrawArgs) :
    graphvizStr w g a = graphvizStr w' g' a ∧ ∀ f, graphvizSource w g a f = graphvizSource w' g' a f := by
  obtain ⟨A, B⟩ := K.booked r hg
  obtain ⟨A', B'⟩ := K'.booked r' hg'
  have F := frame B B'
  have P := S.look B B'
  exact ⟨P.graphvizStr F a, fun f => P.graphvizSource F a f⟩

theorem Draw.silent (I : Engine) (sh : List NRef → List NRef) (g : GRef) (d : Draw) : Silent (d.run I sh g : W C _) := by
  have hr : ∀ lim path view a, Silent (renderTo I lim sh g path view a : W C _) := by
    intro lim path view a
    refine (Silent.display _).bind fun d => (Silent.stylize _ _ _).bind fun _ => ?_
    cases path with
    | none => exact (Silent.ask _).bind fun _ => .pure _
    | some p =>
      exact (Silent.ask _).bind fun _ => (Silent.ask _).bind fun _ => (Silent.ask _).bind fun _ => .pure _
  have hs : ∀ lim path view a, Silent (getSvg I lim sh g path view a : W C _) := fun lim path view a =>
    (Silent.display _).bind fun _ => (hr _ _ _ _).bind fun _ => (Silent.ask _).bind fun _ => .pure _
  cases d with
  | stylize lim => exact (Silent.stylize _ _ _).bind fun _ => .pure _
  | source a f => exact (Silent.ask _).bind fun _ => .pure _
  | render lim path view a => exact hr _ _ _ _
  | svg lim path view a => exact hs _ _ _ _
  | html lim path view a => exact (Silent.ask _).bind fun _ => (Silent.display _).bind fun _ => hs _ _ _ _

/-- **C109**: styling and drawing two graphs that look alike, styles and settings included, returns the same, saves the same and raises
the same, and the graphs look alike afterwards. -/
theorem C109_draw_partial {w w' : World C} (r : Reachable w.heap) (r' : Reachable w'.heap) (F : Made w.heap) (F' : Made w'.heap) {g g' : GRef}
    (hg : g < w.heap.nG) (hg' : g' < w'.heap.nG) (D : DressedAlike w g w' g') (I : Engine) {sh sh' : List NRef → List NRef}
    (H : SameShuffle sh sh') (d : Draw) :
    (d.run I sh g w).1 = (d.run I sh' g' w').1 ∧ DressedAlike (d.run I sh g w).2 g (d.run I sh' g' w').2 g' := by
  obtain ⟨L, K, K'⟩ := D.text
  obtain ⟨A, B⟩ := K.booked r hg
  obtain ⟨A', B'⟩ := K'.booked r' hg'
  have Fr := frame (o := L.overwrite) B B'
  have P := D.pose B B' F F'
  have rel : RelW (Pose (strip w.heap) g (strip w'.heap) g' (SameName A g A' g') (SameId A g A' g')) (fun a b => a = b)
      (d.run I sh g : W C _) (d.run I sh' g') := by
    cases d with
    | stylize lim => exact (Pose.stylize Fr lim H.rel).bind fun _ _ _ => .pure rfl
    | source a f => exact (RelW.askEq fun w w' P => P.graphvizSource Fr a f).bind fun _ _ e => by rw [e]; exact .pure rfl
    | render lim path view a => exact Pose.renderTo Fr I lim H.rel path view a
    | svg lim path view a => exact Pose.getSvg Fr I lim H.rel path view a
    | html lim path view a => exact Pose.getHtml Fr I lim H.rel path view a
  obtain ⟨h1, h2⟩ := rel w w' P
  exact ⟨RelE.eq h1, h2.dressed B B'⟩

/-- **C109**: so does any number of such calls. -/
theorem C109_draws_partial {w w' : World C} (r : Reachable w.heap) (r' : Reachable w'.heap) (F : Made w.heap) (F' : Made w'.heap) {g g' : GRef}
    (hg : g < w.heap.nG) (hg' : g' < w'.heap.nG) (D : DressedAlike w g w' g') (I : Engine)
    {ds ds' : List (Draw × (List NRef → List NRef))} (H : SameDraws ds ds') :
    (runDraws I g ds w).1 = (runDraws I g' ds' w').1 ∧ DressedAlike (runDraws I g ds w).2 g (runDraws I g' ds' w').2 g' := by
  induction H generalizing w w' with
  | nil => exact ⟨rfl, D⟩
  | @cons p q ds ds' hpq _ ih =>
    obtain ⟨d, sh⟩ := p
    obtain ⟨d', sh'⟩ := q
    obtain ⟨hd, hs⟩ := hpq
    simp only at hd hs
    subst hd
    obtain ⟨h1, h2⟩ := C109_draw_partial r r' F F' hg hg' D I hs d
    have q1 := d.silent I sh g w F
    have q2 := d.silent I sh' g' w' F'
    have n1 : w.heap.nG = (d.run I sh g w).2.heap.nG := q1.shape.via (·.nG) fun _ => rfl
    have n2 : w'.heap.nG = (d.run I sh' g' w').2.heap.nG := q2.shape.via (·.nG) fun _ => rfl
    obtain ⟨h3, h4⟩ := ih (q1.reach r) (q2.reach r') q1.fine q2.fine (n1 ▸ hg) (n2 ▸ hg') h2
    exact ⟨by simp only [runDraws, h1, h3], h4⟩

/-- Nodes of graphs that list nodes in order compare alike if the graphs look alike. -/
theorem order_alike {h h' : Heap} (r : Reachable h) (r' : Reachable h') {g g' : GRef} {L : Ledger}
    (K : Reads h g L) (K' : Reads h' g' L) (I : Ascending h g) (I' : Ascending h' g') {k j : Key} {n n' m m' : NRef}
    (h1 : getNode h g (.key k) = .ok n) (h2 : getNode h' g' (.key k) = .ok n') (h3 : getNode h g (.key j) = .ok m)
    (h4 : getNode h' g' (.key j) = .ok m') : nodeLt h n m = nodeLt h' n' m' := by
  have names : (graphNodes h g).map (fun n => (h.node n).id) = (graphNodes h' g').map (fun n => (h'.node n).id) := by
    have := congrArg (List.map NodeL.name) (K.nodes.trans K'.nodes.symm)
    simpa only [List.map_map, Function.comp_def, nodeEntry] using this
  have pos : ∀ {k : Key} {n n' : NRef}, getNode h g (.key k) = .ok n → getNode h' g' (.key k) = .ok n' →
      ∃ i : Nat, (graphNodes h g)[i]? = some n ∧ (graphNodes h' g')[i]? = some n' := by
    intro k n n' h1 h2
    obtain ⟨A, H⟩ := r.hist
    obtain ⟨A', H'⟩ := r'.hist
    have e1 := H.rep.getNode_key.1 h1
    have e2 := H'.rep.getNode_key.1 h2
    obtain ⟨i, hi, rfl⟩ := List.mem_iff_getElem.1 ((mem_graphNodes H.rep).2 ⟨k, e1⟩)
    have hlen : (graphNodes h g).length = (graphNodes h' g').length := by simpa using congrArg List.length names
    have hi' : i < (graphNodes h' g').length := hlen ▸ hi
    refine ⟨i, List.getElem?_eq_getElem hi, ?_⟩
    rw [List.getElem?_eq_getElem hi']
    have e3 := congrArg (·[i]?) names
    simp only [List.getElem?_map, List.getElem?_eq_getElem hi, List.getElem?_eq_getElem hi', Option.map_some, Option.some.injEq] at e3
    obtain ⟨k', e4⟩ := (mem_graphNodes H'.rep).1 (List.getElem_mem hi')
    rw [(H.rep.nodeOk g k _ e1).2.1, (H'.rep.nodeOk g' k' _ e4).2.1] at e3
    subst e3
    rw [val_unique (H'.rep.keysNodup g') e4 e2]
  obtain ⟨i, p1, p2⟩ := pos h1 h2
  obtain ⟨i', p3, p4⟩ := pos h3 h4
  rw [(I.compare r p1 p3).1, (I'.compare r' p2 p4).1]

omit [Palette C] [DecidableEq C] in
/-- Whether there is a style object, as the ledger says. -/
theorem styled_alike {w : World C} {A : Spec} {g : GRef} {L : Ledger} (B : Booked w.heap A g L) :
    (∀ {k n}, (k, n) ∈ (A.graph g).nodes → (∀ v ∈ L.nodes, v.notes.styled = false) → (w.heap.node n).style = none) ∧
    ∀ {i e}, (i, e) ∈ (A.graph g).edges → (∀ v ∈ L.edges, v.notes.styled = false) → (w.heap.edge e).style = none := by
  constructor
  · intro k n hn h
    have := h (nodeEntry w.heap n) (B.nodes ▸ List.mem_map.2 ⟨_, hn, rfl⟩)
    simpa [nodeEntry, nodeNotes] using this
  · intro i e he h
    have := h (entryAs w.heap (i, e)) (B.edges ▸ List.mem_map.2 ⟨_, he, rfl⟩)
    simpa [entryAs, edgeNotes] using this

theorem findEdge_mem {h : Heap} {A : Spec} {g : GRef} {L : Ledger} (B : Booked h A g L) {i : EdgeId} {e : ERef} (he : findEdge h g i = .ok e) :
    (i, e) ∈ (A.graph g).edges := by
  by_cases hi : i ∈ L.ids
  · obtain ⟨f, hf⟩ := B.mem_ids.1 hi
    rw [B.findEdge_ok hf] at he
    cases he
    exact hf
  · rw [B.findEdge_none hi] at he
    cases he

/-- **C109**: in sessions in which no node object is given to `add_node` and no style object is passed on, it is enough that the graphs
look alike. -/
theorem C109_tidy_partial {w w' : World C} (s : TidySession w) (s' : TidySession w') {g g' : GRef} (hg : g < w.heap.nG) (hg' : g' < w'.heap.nG)
    {L : Ledger} (K : Reads w.heap g L) (K' : Reads w'.heap g' L) (S : SeenAlike w g w' g') : DressedAlike w g w' g' := by
  have r := s.sound.reach
  have r' := s'.sound.reach
  obtain ⟨A, B⟩ := K.booked r hg
  obtain ⟨A', B'⟩ := K'.booked r' hg'
  have P := s.sound.apart trivial
  have P' := s'.sound.apart trivial
  have share : ∀ {α : Type} {o p o' p' : Option SRef} {f f' : SRef → α} {Q : Prop}, (Q → o = p) → (Q → o' = p') → (∀ x, o = some x → p = some x → Q) →
      (∀ x, o' = some x → p' = some x → Q) → o.map f = o'.map f' → p.map f = p'.map f' → (o = p ↔ o' = p') := by
    intro α o p o' p' f f' Q q1 q2 q3 q4 m1 m2
    cases o <;> cases o' <;> simp only [Option.map_none, Option.map_some, reduceCtorEq] at m1 <;> cases p <;> cases p' <;>
      simp only [Option.map_none, Option.map_some, reduceCtorEq] at m2 <;> simp only [reduceCtorEq, Option.some.injEq] at *
    constructor
    · rintro rfl; exact q2 (q3 _ rfl rfl)
    · rintro rfl; exact q1 (q4 _ rfl rfl)
  have one : ∀ {k j n n' m m'}, (k, n) ∈ (A.graph g).nodes → (k, n') ∈ (A'.graph g').nodes → (j, m) ∈ (A.graph g).nodes →
      (j, m') ∈ (A'.graph g').nodes → (n = m ↔ k = j) ∧ (n' = m' ↔ k = j) := fun h1 h2 h3 h4 =>
    ⟨(nodeEq_iff B.rep h1 h3).2.2, (nodeEq_iff B'.rep h2 h4).2.2⟩
  refine { toSeenAlike := S, text := ⟨L, K, K'⟩, order := order_alike r r' K K' (s.sound.sorted trivial g) (s'.sound.sorted trivial g'),
           nodeShare := fun {k j n n' m m'} h1 h2 h3 h4 => ?_, edgeShare := fun {i j e e' f f'} h1 h2 h3 h4 => ?_ }
  · obtain ⟨u1, u2⟩ := one (B.rep.getNode_key.1 h1) (B'.rep.getNode_key.1 h2) (B.rep.getNode_key.1 h3) (B'.rep.getNode_key.1 h4)
    exact share (Q := k = j) (fun q => by rw [u1.2 q]) (fun q => by rw [u2.2 q]) (fun x a b => u1.1 (P.node _ _ x a b))
      (fun x a b => u2.1 (P'.node _ _ x a b)) (S.node h1 h2) (S.node h3 h4)
  · have a1 := findEdge_mem B h1
    have a2 := findEdge_mem B' h2
    have a3 := findEdge_mem B h3
    have a4 := findEdge_mem B' h4
    refine share (Q := i = j) (fun q => ?_) (fun q => ?_) (fun x a b => ?_) (fun x a b => ?_) (S.edge h1 h2) (S.edge h3 h4)
    · subst q; rw [val_unique (B.rep.idsNodup g) a1 a3]
    · subst q; rw [val_unique (B'.rep.idsNodup g') a2 a4]
    · have := P.edge _ _ x a b
      subst this
      exact (B.rep.handle_unique a1 a3).2
    · have := P'.edge _ _ x a b
      subst this
      exact (B'.rep.handle_unique a2 a4).2

/-- **C109**: in sessions in which no node object is given to `add_node`, it is enough that the graphs look alike and have the same
settings, if they have no styles yet. -/
theorem C109_unstyled_partial {w w' : World C} (s : OwnedSession w) (s' : OwnedSession w') {g g' : GRef} (hg : g < w.heap.nG) (hg' : g' < w'.heap.nG)
    {L : Ledger} (K : Reads w.heap g L) (K' : Reads w'.heap g' L) (hd : w.display g = w'.display g')
    (hn : ∀ v ∈ L.nodes, v.notes.styled = false) (he : ∀ v ∈ L.edges, v.notes.styled = false) : DressedAlike w g w' g' := by
  have r := s.sound.reach
  have r' := s'.sound.reach
  obtain ⟨A, B⟩ := K.booked r hg
  obtain ⟨A', B'⟩ := K'.booked r' hg'
  have N : ∀ {k n}, getNode w.heap g (.key k) = .ok n → (w.heap.node n).style = none := fun h => (styled_alike B).1 (B.rep.getNode_key.1 h) hn
  have N' : ∀ {k n}, getNode w'.heap g' (.key k) = .ok n → (w'.heap.node n).style = none := fun h => (styled_alike B').1 (B'.rep.getNode_key.1 h) hn
  have E : ∀ {k n}, findEdge w.heap g k = .ok n → (w.heap.edge n).style = none := fun h => (styled_alike B).2 (findEdge_mem B h) he
  have E' : ∀ {k n}, findEdge w'.heap g' k = .ok n → (w'.heap.edge n).style = none := fun h => (styled_alike B').2 (findEdge_mem B' h) he
  exact { display := hd
          node := fun h1 h2 => by simp only [nodeLook, N h1, N' h2, Option.map_none]
          edge := fun h1 h2 => by simp only [edgeLook, E h1, E' h2, Option.map_none]
          text := ⟨L, K, K'⟩
          order := order_alike r r' K K' (s.sound.sorted trivial g) (s'.sound.sorted trivial g')
          nodeShare := fun h1 h2 h3 h4 => by simp only [N h1, N h3, N' h2, N' h4]
          edgeShare := fun h1 h2 h3 h4 => by simp only [E h1, E h3, E' h2, E' h4] }

end

end Verif
