import Verif.Props.Order
/-!
# C16: comparing an edge that was deleted
-/
namespace Verif
open M

theorem detached_edgeEq {h : Heap} {A : Spec} (R : Rep h A) {g : GRef} {e f : ERef} (he : (h.edge e).graph = none) (hf : LiveEdge h g f) :
    (edgeEq h e f = .error (.valueError "different graphs") ∧ edgeEq h f e = .error (.valueError "different graphs")) ∧
    edgeNe h e f = .error (.valueError "different graphs") ∧ edgeNe h f e = .error (.valueError "different graphs") := by
  obtain ⟨j, hj⟩ := (liveEdge_iff R).1 hf
  simp [edgeEq, edgeNe, he, R.edge_graph hj]

/-- **C16**: an edge that was deleted with `disconnect` cannot be compared with an edge that is still there, of whatever graph: `==`
and `!=` raise `ValueError`, both ways. It is equal to itself. -/
theorem C16_disconnected {h h' : Heap} (r : Reachable h) {g : GRef} {e : ERef} (he : LiveEdge h g e)
    (hr : disconnect e h = (.ok (), h')) :
    (∀ g' f, LiveEdge h' g' f →
      (edgeEq h' e f = .error (.valueError "different graphs") ∧ edgeEq h' f e = .error (.valueError "different graphs")) ∧
      edgeNe h' e f = .error (.valueError "different graphs") ∧ edgeNe h' f e = .error (.valueError "different graphs")) ∧
    edgeEq h' e e = .ok true ∧ edgeNe h' e e = .ok false := by
  obtain ⟨A, H⟩ := r.hist
  obtain ⟨i, hi⟩ := (liveEdge_iff H.rep).1 he
  obtain ⟨n, m, h1, h2, h3, R'⟩ := H.rep.disconnect_live hi
  rw [h3] at hr
  cases hr
  refine ⟨fun g' f hf => detached_edgeEq R' (by simp [disconnectHeap]) hf, ?_, ?_⟩
  · simp [edgeEq, edgeId, disconnectHeap, h1, h2, bind, Except.bind, pure, Except.pure]
  · simp [edgeNe]

/-- **C16**: the same for an edge deleted with `remove_self`, except that comparing it with itself by `==` raises as well: the edge has
lost its ends. -/
theorem C16_removed {h h' : Heap} (r : Reachable h) {g : GRef} {e : ERef} (he : LiveEdge h g e)
    (hr : edgeRemoveSelf e h = (.ok (), h')) :
    (∀ g' f, LiveEdge h' g' f →
      (edgeEq h' e f = .error (.valueError "different graphs") ∧ edgeEq h' f e = .error (.valueError "different graphs")) ∧
      edgeNe h' e f = .error (.valueError "different graphs") ∧ edgeNe h' f e = .error (.valueError "different graphs")) ∧
    edgeEq h' e e = .error (.valueError "This Edge does not have a start!") ∧ edgeNe h' e e = .ok false := by
  obtain ⟨A, H⟩ := r.hist
  obtain ⟨i, hi⟩ := (liveEdge_iff H.rep).1 he
  obtain ⟨n, m, h1, h2, h3, R'⟩ := H.rep.removeSelf_live hi
  rw [h3] at hr
  cases hr
  refine ⟨fun g' f hf => detached_edgeEq R' (by simp [removeSelfHeap]) hf, ?_, ?_⟩
  · simp [edgeEq, edgeId, removeSelfHeap, bind, Except.bind]
  · simp [edgeNe]

/-- Edge 0 of `demo` is there, deleting it works, and others stay to compare it with. -/
example := C16_disconnected demo_reachable (g := 0) (e := 0) ⟨0, by decide, [0, 3], by decide, by decide⟩
  (h' := (disconnect 0 demo).2) (by have : (disconnect 0 demo).1 = .ok () := by decide +kernel
                                    rw [← this])
example := C16_removed demo_reachable (g := 0) (e := 0) ⟨0, by decide, [0, 3], by decide, by decide⟩
  (h' := (edgeRemoveSelf 0 demo).2) (by have : (edgeRemoveSelf 0 demo).1 = .ok () := by decide +kernel
                                        rw [← this])
example : LiveEdge (disconnect 0 demo).2 0 3 ∧ LiveEdge (edgeRemoveSelf 0 demo).2 0 3 :=
  ⟨⟨0, by decide +kernel, [3], by decide +kernel, by decide⟩, ⟨0, by decide +kernel, [3], by decide +kernel, by decide⟩⟩

end Verif
