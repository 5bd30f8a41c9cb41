import Verif.Spec.Cutting
import Verif.Props.BuildOrder
/-!
# C106: the order of deletions
-/
namespace Verif
open M

/-- The graph without what the calls delete. -/
def SGraph.cut (G : SGraph) (h : Heap) (g : GRef) (ops : List Op) : SGraph :=
  { nodes := G.nodes.filter fun p => !ops.any (Op.cutsNode h g p.1)
    edges := G.edges.filter fun p => !ops.any (Op.cutsEdge h g p.1.1 p.1.2.1 p.2) }

theorem SGraph.cut_nil (G : SGraph) (h : Heap) (g : GRef) : G.cut h g [] = G := by
  cases G; simp [SGraph.cut]

theorem SGraph.cut_cons (G : SGraph) (h : Heap) (g : GRef) (op : Op) (ops : List Op) :
    (G.cut h g [op]).cut h g ops = G.cut h g (op :: ops) := by
  simp only [SGraph.cut, List.filter_filter, List.any_cons, List.any_nil, Bool.or_false, Bool.not_or, Bool.and_comm]

theorem Rep.argName_name {h : Heap} {A : Spec} (R : Rep h A) (a : NodeArg) : A.argName a = a.name h := by
  cases a <;> simp [Spec.argName, NodeArg.name, R.name]

/-- Nothing to delete. -/
theorem cut_absent {h : Heap} {A : Spec} {g : GRef} {op : Op}
    (hn : ∀ k n, (k, n) ∈ (A.graph g).nodes → op.cutsNode h g k = false)
    (he : ∀ s t i e, ((s, t, i), e) ∈ (A.graph g).edges → op.cutsEdge h g s t e = false) : (A.graph g).cut h g [op] = A.graph g := by
  have h1 : (A.graph g).nodes.filter (fun p => !([op] : List Op).any (Op.cutsNode h g p.1)) = (A.graph g).nodes :=
    List.filter_eq_self.2 fun p hp => by simp [hn p.1 p.2 hp]
  have h2 : (A.graph g).edges.filter (fun p => !([op] : List Op).any (Op.cutsEdge h g p.1.1 p.1.2.1 p.2)) = (A.graph g).edges :=
    List.filter_eq_self.2 fun p hp => by simp [he p.1.1 p.1.2.1 p.1.2.2 p.2 hp]
  unfold SGraph.cut
  rw [h1, h2]

theorem unregister_cut {h : Heap} {A : Spec} {g g' : GRef} {a : NodeArg} {k : Key} (ha : a.name h = some k) :
    (A.unregister g' k).graph g = (A.graph g).cut h g [.removeNode g' a] := by
  by_cases e : g = g'
  · subst e
    simp only [Spec.unregister, upd_same, SGraph.delNode, SGraph.cut, Op.cutsNode, Op.cutsEdge, ha, List.any_cons, List.any_nil, Bool.or_false,
      beq_self_eq_true, Bool.true_and]
    congr 1
    · refine List.filter_congr fun p _ => ?_
      by_cases hk : p.1 = k
      · simp [hk]
      · simp [hk, Ne.symm hk]
    · refine List.filter_congr fun p _ => ?_
      have c : ∀ x : Key, ((some k : Option Key) == some x) = decide (x = k) := fun x => by
        by_cases hx : x = k
        · simp [hx]
        · simp [hx, Ne.symm hx]
      rw [c, c, Bool.decide_and, decide_not, decide_not, Bool.not_or]
  · simp only [Spec.unregister, upd_ne _ _ e]
    have : (g' == g) = false := by simpa using Ne.symm e
    simp [SGraph.cut, Op.cutsNode, Op.cutsEdge, this]

theorem delEdge_cut {h : Heap} (A : Spec) (g : GRef) (e : ERef) :
    (A.graph g).delEdge e = (A.graph g).cut h g [.disconnect e] ∧ (A.graph g).delEdge e = (A.graph g).cut h g [.removeSelf e] := by
  have c : (A.graph g).edges.filter (fun p => !decide (p.2 = e)) = (A.graph g).edges.filter (fun p => !(e == p.2)) := by
    refine List.filter_congr fun p _ => ?_
    by_cases hx : p.2 = e
    · simp [hx]
    · have := Ne.symm hx
      simp [hx, this]
  constructor <;> simp [SGraph.delEdge, SGraph.cut, Op.cutsNode, Op.cutsEdge, c]

theorem cut_step {h : Heap} {A : Spec} (H : Hist h A) {op : Op} (ok : op.Ok h) (hr : op.Removes) (g : GRef) :
    (A.step op (op.step h).1).graph g = (A.graph g).cut h g [op] ∧
    ∀ n, ((op.step h).2.node n).id = (h.node n).id := by
  have R := H.rep
  have R' := (Hist.step op H ok).rep
  refine ⟨?_, fun n => ?_⟩
  · cases op with
    | removeNode g' a =>
      cases hg : getNode h g' a with
      | ok n =>
        obtain ⟨k, hk, hn⟩ := R.getNode_ok.1 hg
        obtain ⟨h1, -, hrun, -⟩ := R.removeNode_live hg hn
        simp only [Op.step, bind_apply, hrun, pure_apply, Spec.step]
        have hk' : A.argName a = some k := hk
        rw [hk']
        rw [R.argName_name] at hk'
        exact unregister_cut hk'
      | error err =>
        have hrun : removeNode g' a h = (.error err, h) := by simp [removeNode, bind_apply, ask_apply, hg]
        simp only [Op.step, bind_apply, hrun, Spec.step]
        have no : ∀ k n, (k, n) ∈ (A.graph g').nodes → a.name h ≠ some k := by
          intro k n hm hc
          rw [← R.argName_name] at hc
          have := R.getNode_ok.2 ⟨k, hc, hm⟩
          rw [hg] at this
          cases this
        refine (cut_absent (fun k n hm => ?_) fun s t i e hm => ?_).symm
        · by_cases e : g' = g
          · subst e; simp [Op.cutsNode, no k n hm]
          · simp [Op.cutsNode, e]
        · by_cases e : g' = g
          · subst e
            obtain ⟨-, -, -, -, n, m, hn, hm', -⟩ := R.edgeOk _ _ _ _ _ hm
            simp [Op.cutsEdge, no s n hn, no t m hm']
          · simp [Op.cutsEdge, e]
    | disconnect e =>
      by_cases hl : ∃ g', e ∈ (A.graph g').handles
      · obtain ⟨g', hl⟩ := hl
        obtain ⟨i, hi⟩ := Rep.mem_handles.1 hl
        obtain ⟨n, m, -, -, hrun, -⟩ := R.disconnect_live hi
        simp only [Op.step, bind_apply, hrun, pure_apply, Spec.step]
        exact (delEdge_cut A g e).1
      · obtain ⟨err, hrun⟩ := R.disconnect_dead fun g' hc => hl ⟨g', hc⟩
        simp only [Op.step, bind_apply, hrun, Spec.step]
        refine (cut_absent (fun k n hm => rfl) fun s t i e' hm => ?_).symm
        simp only [Op.cutsEdge, beq_eq_false_iff_ne]
        rintro rfl
        exact hl ⟨g, Rep.mem_handles.2 ⟨_, hm⟩⟩
    | removeSelf e =>
      by_cases hl : ∃ g', e ∈ (A.graph g').handles
      · obtain ⟨g', hl⟩ := hl
        obtain ⟨i, hi⟩ := Rep.mem_handles.1 hl
        obtain ⟨n, m, -, -, hrun, -⟩ := R.removeSelf_live hi
        simp only [Op.step, bind_apply, hrun, pure_apply, Spec.step]
        exact (delEdge_cut A g e).2
      · obtain ⟨err, hrun⟩ := R.removeSelf_dead fun g' hc => hl ⟨g', hc⟩
        simp only [Op.step, bind_apply, hrun, Spec.step]
        refine (cut_absent (fun k n hm => rfl) fun s t i e' hm => ?_).symm
        simp only [Op.cutsEdge, beq_eq_false_iff_ne]
        rintro rfl
        exact hl ⟨g, Rep.mem_handles.2 ⟨_, hm⟩⟩
    | _ => exact absurd hr id
  · rw [← R'.name, ← R.name]
    cases op with
    | removeNode g' a =>
      generalize Prod.fst _ = out
      cases out with
      | error err => rfl
      | ok out =>
        simp only [Spec.step]
        cases A.argName a <;> rfl
    | disconnect e =>
      generalize Prod.fst _ = out
      cases out <;> rfl
    | removeSelf e =>
      generalize Prod.fst _ = out
      cases out <;> rfl
    | _ => exact absurd hr id

theorem cut_names {h h' : Heap} (hid : ∀ n, (h'.node n).id = (h.node n).id) : (∀ g k op, Op.cutsNode h' g k op = Op.cutsNode h g k op) ∧
    ∀ g s t e op, Op.cutsEdge h' g s t e op = Op.cutsEdge h g s t e op := by
  have : ∀ a : NodeArg, a.name h' = a.name h := fun a => by cases a <;> simp [NodeArg.name, hid]
  constructor
  · intro g k op
    cases op <;> simp [Op.cutsNode, this]
  · intro g s t e op
    cases op <;> simp [Op.cutsEdge, this]

theorem cut_run {h : Heap} {A : Spec} (H : Hist h A) {ops : List Op} (ok : AllOk ops h) (hr : ∀ op ∈ ops, op.Removes) :
    ∃ A', Hist (runOps ops h) A' ∧ ∀ g, A'.graph g = (A.graph g).cut h g ops := by
  induction ops generalizing h A with
  | nil => exact ⟨A, H, fun g => ((A.graph g).cut_nil h g).symm⟩
  | cons op ops ih =>
    have c := cut_step H ok.1 (hr op List.mem_cons_self)
    obtain ⟨A', H', e⟩ := ih (.step op H ok.1) ok.2 fun o ho => hr o (List.mem_cons_of_mem _ ho)
    refine ⟨A', H', fun g => ?_⟩
    obtain ⟨c1, c2⟩ := cut_names (c 0).2
    have cut : ∀ G : SGraph, G.cut (op.step h).2 g ops = G.cut h g ops := fun G => by
      have d1 : ∀ k, Op.cutsNode (op.step h).2 g k = Op.cutsNode h g k := fun k => funext (c1 g k)
      have d2 : ∀ s t e, Op.cutsEdge (op.step h).2 g s t e = Op.cutsEdge h g s t e := fun s t e => funext (c2 g s t e)
      simp only [SGraph.cut, d1, d2]
    rw [e, (c g).1, cut, SGraph.cut_cons]

/-- **C106**: after any sequence of `remove_node`, `disconnect` and `remove_self` calls, failing ones included, a graph has exactly the
nodes that none of the calls names, and every node has exactly those of its edges that no call names and none of whose ends is named;
all in the order they had. -/
theorem C106_result {h : Heap} (r : Reachable h) {ops : List Op} (ok : AllOk ops h) (hr : ∀ op ∈ ops, op.Removes) (g : GRef) :
    graphNodes (runOps ops h) g = (graphNodes h g).filter (fun n => !ops.any (Op.cutsNode h g (h.node n).id)) ∧
    (∀ n ∈ graphNodes (runOps ops h) g, ((runOps ops h).node n).id = (h.node n).id ∧
      (∃ os, outwardEdges h n = .ok os ∧ outwardEdges (runOps ops h) n = .ok (os.filter (survives h g ops))) ∧
      (∃ is, inwardEdges h n = .ok is ∧ inwardEdges (runOps ops h) n = .ok (is.filter (survives h g ops)))) ∧
    ∀ e, LiveEdge (runOps ops h) g e ↔ LiveEdge h g e ∧ survives h g ops e = true := by
  obtain ⟨A, H⟩ := r.hist
  obtain ⟨A', H', hc⟩ := cut_run H ok hr
  have R := H.rep
  have R' := H'.rep
  have surv : ∀ i e, (i, e) ∈ (A.graph g).edges → survives h g ops e = !ops.any (Op.cutsEdge h g i.1 i.2.1 e) := fun i e hi => by
    simp only [survives, R.edgeId_eq hi]
  refine ⟨?_, fun n hn => ?_, fun e => ?_⟩
  · simp only [graphNodes, dvals, R.nodes, R'.nodes, hc g, SGraph.cut, List.filter_map]
    congr 1
    refine List.filter_congr fun p hp => ?_
    simp only [Function.comp, (R.nodeOk g p.1 p.2 hp).2.1]
  · obtain ⟨k, hk'⟩ := (mem_graphNodes R').1 hn
    have hk : (k, n) ∈ (A.graph g).nodes := by
      rw [hc g] at hk'
      exact (List.mem_filter.1 hk').1
    refine ⟨by rw [(R.nodeOk g k n hk).2.1, (R'.nodeOk g k n hk').2.1], ⟨_, R.outwardEdges hk, ?_⟩, ⟨_, R.inwardEdges hk, ?_⟩⟩
    · rw [R'.outwardEdges hk', hc g]
      simp only [SGraph.out, SGraph.cut, List.filter_map, List.filter_filter]
      congr 2
      refine List.filter_congr fun p hp => ?_
      simp only [Function.comp, surv p.1 p.2 hp, Bool.and_comm]
    · rw [R'.inwardEdges hk', hc g]
      simp only [SGraph.inn, SGraph.cut, List.filter_map, List.filter_filter]
      congr 2
      refine List.filter_congr fun p hp => ?_
      simp only [Function.comp, surv p.1 p.2 hp, Bool.and_comm]
  · rw [liveEdge_iff R', liveEdge_iff R, hc g]
    simp only [SGraph.cut, List.mem_filter]
    constructor
    · rintro ⟨i, hi, hs⟩
      exact ⟨⟨i, hi⟩, by rw [surv i e hi]; exact hs⟩
    · rintro ⟨⟨i, hi⟩, hs⟩
      exact ⟨i, hi, by rw [surv i e hi] at hs; exact hs⟩

/-- **C106**: hence the order of deletions does not matter, nor does repeating them: two sequences of the same deleting calls leave every
graph with the same nodes and edges, in the same order, whichever of the calls raise. -/
theorem C106_order {h : Heap} (r : Reachable h) {ops ops' : List Op} (ok : AllOk ops h) (ok' : AllOk ops' h)
    (hr : ∀ op ∈ ops, op.Removes) (same : ∀ op, op ∈ ops ↔ op ∈ ops') (g : GRef) :
    graphNodes (runOps ops h) g = graphNodes (runOps ops' h) g ∧
    (∀ n ∈ graphNodes (runOps ops h) g,
      ((runOps ops h).node n).id = ((runOps ops' h).node n).id ∧
      outwardEdges (runOps ops h) n = outwardEdges (runOps ops' h) n ∧
      inwardEdges (runOps ops h) n = inwardEdges (runOps ops' h) n) ∧
    (∀ e, LiveEdge (runOps ops h) g e ↔ LiveEdge (runOps ops' h) g e) ∧
    ∀ x y, Path (runOps ops h) g x y ↔ Path (runOps ops' h) g x y := by
  obtain ⟨A, H⟩ := r.hist
  obtain ⟨B, HB, hb⟩ := cut_run H ok hr
  obtain ⟨D, HD, hd⟩ := cut_run H ok' fun op ho => hr op ((same op).2 ho)
  have any : ∀ q : Op → Bool, ops.any q = ops'.any q := fun q => by
    rw [Bool.eq_iff_iff, List.any_eq_true, List.any_eq_true]
    simp only [same]
  have e : B.graph g = D.graph g := by
    rw [hb, hd]
    simp only [SGraph.cut, any]
  have arrows : ∀ x y, Arrow (runOps ops h) g x y ↔ Arrow (runOps ops' h) g x y := fun x y => by
    rw [HB.rep.arrow_iff, HD.rep.arrow_iff, e]
  refine ⟨by simp only [graphNodes, HB.rep.nodes, HD.rep.nodes, e], fun n hn => ?_, fun x => ?_, fun x y => ?_⟩
  · obtain ⟨k, hk⟩ := (mem_graphNodes HB.rep).1 hn
    have hk' := e ▸ hk
    rw [HB.rep.outwardEdges hk, HB.rep.inwardEdges hk, HD.rep.outwardEdges hk', HD.rep.inwardEdges hk', e]
    exact ⟨by rw [(HB.rep.nodeOk g k n hk).2.1, (HD.rep.nodeOk g k n hk').2.1], rfl, rfl⟩
  · rw [liveEdge_iff HB.rep, liveEdge_iff HD.rep, e]
  · exact ⟨Path.mono_arrow fun x y => (arrows x y).1, Path.mono_arrow fun x y => (arrows x y).2⟩

end Verif
