import Verif.Lemmas.Owned
import Verif.Lemmas.Later
import Verif.Props.Copy
/-!
# The nodes of a graph are listed in the order of their indices
-/
namespace Verif
open M

/-- The nodes of `g` are listed in the order of their indices, and the next index is larger than all of them. -/
def Ascending (h : Heap) (g : GRef) : Prop :=
  ((graphNodes h g).Pairwise fun n m => (h.node n).index < (h.node m).index) ∧ ∀ n ∈ graphNodes h g, (h.node n).index < (h.graph g).counter

theorem Ascending.sub {h h' : Heap} {A A' : Spec} (R : Rep h A) (R' : Rep h' A') {U : NRef → Prop} {V : ERef → Prop} {W : GRef → Prop}
    (L : Later U V W h h') {g : GRef} (sub : (A'.graph g).nodes.Sublist (A.graph g).nodes) (I : Ascending h g) : Ascending h' g := by
  have s1 : (graphNodes h' g).Sublist (graphNodes h g) := by
    unfold graphNodes dvals
    rw [R.nodes, R'.nodes]
    exact sub.map _
  have same : ∀ n ∈ graphNodes h g, (h'.node n).index = (h.node n).index := by
    intro n hn
    obtain ⟨k, hk⟩ := (mem_graphNodes R).1 hn
    exact (L.node n (R.nodeOk g k n hk).1).index
  have lt : ∀ n ∈ graphNodes h g, g < h.nG := by
    intro n hn
    obtain ⟨k, hk⟩ := (mem_graphNodes R).1 hn
    refine Classical.byContradiction fun hc => ?_
    rw [(R.graphs g (Nat.le_of_not_lt hc)).1] at hk
    cases hk
  refine ⟨?_, fun n hn => ?_⟩
  · refine (I.1.sublist s1).imp_of_mem ?_
    intro n m hn hm hlt
    rw [same n (s1.subset hn), same m (s1.subset hm)]
    exact hlt
  · have hn := s1.subset hn
    rw [same n hn]
    exact Nat.lt_of_lt_of_le (I.2 n hn) (L.graph g (lt n hn)).1

theorem Reachable.inOrder_step {h : Heap} (r : Reachable h) {op : Op} (ok : op.Ok h) (I : ∀ g, Ascending h g) (hno : ∀ g, ¬ op.Readds g) :
    ∀ g, Ascending (op.step h).2 g := by
  obtain ⟨A, H⟩ := r.hist
  have R := H.rep
  have R' := R.step op ok
  have L := Grows.step op h
  intro g
  revert R' L
  cases hr : (op.step h).1 with
  | error err => intro R' L; exact (I g).sub R R' L (List.Sublist.refl _)
  | ok out =>
    intro R' L
    have keep : ((A.step op (.ok out)).graph g).nodes = (A.graph g).nodes → Ascending (op.step h).2 g := fun e =>
      (I g).sub R R' L (by rw [e])
    have conn : ∀ g' s t x e, ((A.connect g' s t x e).graph g).nodes = (A.graph g).nodes := by
      intro g' s t x e
      unfold Spec.connect
      split
      · simp only [Spec.on]
        by_cases hg : g = g'
        · subst hg
          rw [upd_same]
          unfold SGraph.addEdge
          split <;> rfl
        · rw [upd_ne _ _ hg]
      · rfl
    cases op with
    | addNode g' x a p =>
      cases out with
      | node n =>
        by_cases hx : x ∈ (A.graph g').names
        · exact keep (by simp [Spec.step, Spec.register, hx])
        by_cases hg : g = g'
        · subst hg
          cases x with
          | int i => simp [Op.step, Verif.addNode, bind_apply, raise] at hr
          | str x =>
            obtain ⟨h', hrun, hR⟩ := R.addNode_new ok hx a p
            cases hs : styleResult none h.nStyle a.style with
            | none => simp [Op.step, bind_apply, hrun, hs] at hr
            | some sr =>
              rw [hs] at hrun hR
              obtain ⟨-, hn, -, hgr, -⟩ := hR
              have e : ((Op.addNode g (.str x) a p).step h).2 = h' := by simp [Op.step, bind_apply, hrun]
              rw [e]
              have old : ∀ n ∈ graphNodes h g, h'.node n = h.node n := by
                intro n hm
                obtain ⟨k, hk⟩ := (mem_graphNodes R).1 hm
                rw [hn, upd_ne _ _ (Nat.ne_of_lt (R.nodeOk g k n hk).1)]
              have list : graphNodes h' g = graphNodes h g ++ [h.nN] := by
                simp [graphNodes, dvals, hgr]
              refine ⟨?_, fun n hm => ?_⟩
              · rw [list, List.pairwise_append]
                refine ⟨(I g).1.imp_of_mem fun {n m} h1 h2 h3 => by rw [old n h1, old m h2]; exact h3, List.pairwise_singleton _ _, ?_⟩
                intro n h1 m h2
                rw [List.mem_singleton] at h2
                subst h2
                rw [old n h1, hn, upd_same]
                exact (I g).2 n h1
              · rw [list, List.mem_append, List.mem_singleton] at hm
                rw [hgr, upd_same]
                rcases hm with hm | rfl
                · rw [old n hm]; exact Nat.lt_succ_of_lt ((I g).2 n hm)
                · rw [hn, upd_same]; exact Nat.lt_succ_self _
        · exact keep (by simp [Spec.step, Spec.register, hx, upd_ne _ _ hg])
      | _ => exact keep rfl
    | addNodeObj g' n => exact absurd rfl (hno g')
    | removeNode g' a =>
      refine (I g).sub R R' L ?_
      simp only [Spec.step]
      split
      · simp only [Spec.unregister]
        by_cases hg : g = g'
        · subst hg
          rw [upd_same]
          exact List.filter_sublist
        · rw [upd_ne _ _ hg]
      · exact List.Sublist.refl _
    | connect g' s t a p => cases out with
      | edge e => exact keep (conn _ _ _ _ _)
      | _ => exact keep rfl
    | connectTo n t a p => cases out with
      | edge e =>
        refine keep ?_
        simp only [Spec.step]
        split
        · exact conn _ _ _ _ _
        · rfl
      | _ => exact keep rfl
    | connectFrom n s a p => cases out with
      | edge e =>
        refine keep ?_
        simp only [Spec.step]
        split
        · exact conn _ _ _ _ _
        · rfl
      | _ => exact keep rfl
    | copy g0 =>
      have hst : ∀ n ∈ graphNodes h g0, (h.node n).style = none := by
        intro n hn
        refine Classical.byContradiction fun hs => ?_
        simp [Op.step, bind_apply, C33_violated hn hs] at hr
      obtain ⟨m, h', hrun, P, -⟩ := copy_run H ok hst
      have e : ((Op.copy g0).step h).2 = h' := by simp [Op.step, bind_apply, hrun]
      rw [e] at L ⊢
      by_cases hg : g = h.nG
      · subst hg
        have list : graphNodes h' h.nG = (graphNodes h g0).map m.node := by
          simp [graphNodes, dvals, P.graphNew, Function.comp_def]
        have new : ∀ n ∈ graphNodes h g0, (h'.node (m.node n)).index = (h.node n).index := by
          intro n hn
          rw [(P.nodeNew n ((P.nodeKeys n).2 ((mem_graphNodes R).1 hn))).2.2]
        refine ⟨?_, fun n hn => ?_⟩
        · rw [list, List.pairwise_map]
          exact (I g0).1.imp_of_mem fun {n m} h1 h2 h3 => by rw [new n h1, new m h2]; exact h3
        · rw [list, List.mem_map] at hn
          obtain ⟨k, hk, rfl⟩ := hn
          rw [new k hk, P.graphNew]
          exact (I g0).2 k hk
      · have list : graphNodes h' g = graphNodes h g := by simp only [graphNodes, P.graphOld g hg]
        have old : ∀ n ∈ graphNodes h g, h'.node n = h.node n := by
          intro n hm
          obtain ⟨k, hk⟩ := (mem_graphNodes R).1 hm
          exact P.nodeOld n (R.nodeOk g k n hk).1
        refine ⟨?_, fun n hn => ?_⟩
        · rw [list]
          exact (I g).1.imp_of_mem fun {n m} h1 h2 h3 => by rw [old n h1, old m h2]; exact h3
        · rw [list] at hn
          rw [old n hn, P.graphOld g hg]
          exact (I g).2 n hn
    | _ => exact keep rfl

/-- What depends on nothing but the structure. -/
theorem Ascending.of_eq {h h' : Heap} {g : GRef} (I : Ascending h g) (hn : graphNodes h' g = graphNodes h g)
    (hi : ∀ n, (h'.node n).index = (h.node n).index) (hc : (h'.graph g).counter = (h.graph g).counter) : Ascending h' g := by
  unfold Ascending
  rw [hn, hc]
  simp only [hi]
  exact I

end Verif
