import Verif.Props.Connect
/-!
# C04: when two calls of `connect` give the same edge
-/
namespace Verif
open M

theorem EdgeArgs.raw_inj {a b : EdgeArgs} : a.raw = b.raw ↔ a.id = b.id := by
  unfold EdgeArgs.raw
  cases a.id <;> cases b.id <;> simp

/-- After a successful `connect` the returned edge is listed under its id. -/
theorem connect_listed {h h1 : Heap} {A : Spec} (R : Rep h A) {g : GRef} {s t : NodeArg} {n m : NRef} {a : EdgeArgs} {p : IfExists}
    {e : ERef} (hs : getNode h g s = .ok n) (ht : getNode h g t = .ok m) (hr : connect g s t a p h = (.ok e, h1)) :
    ∃ x y, (x, n) ∈ (A.graph g).nodes ∧ (y, m) ∈ (A.graph g).nodes ∧
      Rep h1 (A.on g fun G => G.addEdge (x, y, a.raw) e) ∧
      ((x, y, a.raw), e) ∈ ((A.graph g).addEdge (x, y, a.raw) e).edges := by
  obtain ⟨x, hx, hn⟩ := R.getNode_ok.1 hs
  obtain ⟨y, hy, hm⟩ := R.getNode_ok.1 ht
  have R1 := R.connect_step g s t a p
  rw [hr] at R1
  have hci : A.connectId s t a.raw = some (x, y, a.raw) := by
    rw [Rep.argName_eq] at hx hy
    simp [Spec.connectId, hx, hy]
  simp only [Spec.connect, hci] at R1
  refine ⟨x, y, hn, hm, R1, ?_⟩
  by_cases hnew : (x, y, a.raw) ∈ (A.graph g).ids
  · obtain ⟨e', he⟩ := Rep.mem_ids.1 hnew
    rw [Rep.addEdge_old he]
    rw [R.connect_old hs ht hn hm a p he] at hr
    simp only [bind_apply] at hr
    cases h2 : p.check (.valueError "already exists") h with
    | mk q k1 =>
      rw [h2] at hr
      cases q with
      | error e => simp at hr
      | ok u =>
        simp only at hr
        cases h3 : edgeUpdate e' a.label a.value a.style k1 with
        | mk q k2 =>
          rw [h3] at hr
          cases q with
          | error e => simp at hr
          | ok u => simp at hr; rw [← hr.1]; exact he
  · simp [SGraph.addEdge, hnew]

/-- **C04.** The edge that `connect` returns runs between the two nodes that were named and has the id that was asked for;
without an id it has no id of its own. -/
theorem C04_identity {h h1 : Heap} (r : Reachable h) {g : GRef} {s t : NodeArg} {n m : NRef} {a : EdgeArgs} {p : IfExists}
    {e : ERef} (hs : getNode h g s = .ok n) (ht : getNode h g t = .ok m) (hr : connect g s t a p h = (.ok e, h1)) :
    (h1.edge e).graph = some g ∧ (h1.edge e).start = some n ∧ (h1.edge e).stop = some m ∧
    (h1.edge e).raw = (match a.id with | none => .none | some k => .key k) ∧
    edgeId h1 e = .ok ((h.node n).id, (h.node m).id, match a.id with | none => .none | some k => .key k) := by
  obtain ⟨A, H⟩ := r.hist
  have R := H.rep
  obtain ⟨x, y, hn, hm, R1, hin⟩ := connect_listed R hs ht hr
  have hin' : ((x, y, a.raw), e) ∈ ((A.on g fun G => G.addEdge (x, y, a.raw) e).graph g).edges := by
    simpa only [Spec.on, upd_same] using hin
  have hnodes : ((A.on g fun G => G.addEdge (x, y, a.raw) e).graph g).nodes = (A.graph g).nodes := by
    simp only [Spec.on, upd_same, SGraph.addEdge]; split <;> rfl
  have hid := R1.edgeId_eq hin'
  obtain ⟨-, -, hg, hraw, n', m', hn', hm', hst, hsp⟩ := R1.edgeOk _ _ _ _ _ hin'
  rw [hnodes] at hn' hm'
  rw [val_unique (R.keysNodup g) hn' hn] at hst
  rw [val_unique (R.keysNodup g) hm' hm] at hsp
  refine ⟨hg, hst, hsp, hraw, ?_⟩
  rw [hid, (R.nodeOk g x n hn).2.1, (R.nodeOk g y m hm).2.1]
  rfl

/-- **C04.** Two successful calls of `connect`, one after the other, return the same edge exactly when they were made on the
same graph, between the same two nodes and with the same `id` (or both without). -/
theorem C04_same_edge {h h1 h2 : Heap} (r : Reachable h) {g g' : GRef} {s t s' t' : NodeArg} {n m n' m' : NRef}
    {a a' : EdgeArgs} {p p' : IfExists} {e e' : ERef}
    (hs : getNode h g s = .ok n) (ht : getNode h g t = .ok m) (hr : connect g s t a p h = (.ok e, h1))
    (hs' : getNode h1 g' s' = .ok n') (ht' : getNode h1 g' t' = .ok m') (hr' : connect g' s' t' a' p' h1 = (.ok e', h2)) :
    e' = e ↔ g' = g ∧ n' = n ∧ m' = m ∧ a'.id = a.id := by
  obtain ⟨A, H⟩ := r.hist
  have R := H.rep
  obtain ⟨x, y, hn, hm, R1, hin⟩ := connect_listed R hs ht hr
  obtain ⟨x', y', hn', hm', R2, hin2⟩ := connect_listed R1 hs' ht' hr'
  generalize hA1 : (A.on g fun G => G.addEdge (x, y, a.raw) e) = A1 at *
  have hin1 : ((x, y, a.raw), e) ∈ (A1.graph g).edges := by
    rw [← hA1]; simpa only [Spec.on, upd_same] using hin
  have hnodes : (A1.graph g).nodes = (A.graph g).nodes := by
    rw [← hA1]; simp only [Spec.on, upd_same, SGraph.addEdge]; split <;> rfl
  generalize hA2 : (A1.on g' fun G => G.addEdge (x', y', a'.raw) e') = A2 at *
  have old : ((x, y, a.raw), e) ∈ (A2.graph g).edges := by
    rw [← hA2]
    by_cases hg : g = g'
    · subst hg
      simp only [Spec.on, upd_same, SGraph.addEdge]
      split
      · exact hin1
      · exact List.mem_append_left _ hin1
    · simpa only [Spec.on, upd_ne _ _ hg] using hin1
  have new : ((x', y', a'.raw), e') ∈ (A2.graph g').edges := by
    rw [← hA2]; simpa only [Spec.on, upd_same] using hin2
  rw [← hnodes] at hn hm
  constructor
  · rintro rfl
    obtain ⟨hg, hi⟩ := R2.handle_unique new old
    subst hg
    obtain ⟨rfl, rfl, hraw⟩ : x' = x ∧ y' = y ∧ a'.raw = a.raw := by simpa using hi
    exact ⟨rfl, val_unique (R1.keysNodup _) hn' hn, val_unique (R1.keysNodup _) hm' hm, EdgeArgs.raw_inj.1 hraw⟩
  · rintro ⟨rfl, rfl, rfl, hid⟩
    have h1 : x' = x := ((R1.nodeOk _ _ _ hn').2.1).symm.trans ((R1.nodeOk _ _ _ hn).2.1)
    have h2 : y' = y := ((R1.nodeOk _ _ _ hm').2.1).symm.trans ((R1.nodeOk _ _ _ hm).2.1)
    rw [h1, h2, EdgeArgs.raw_inj.2 hid] at new
    exact val_unique (R2.idsNodup _) new old

/-- Without an id, with the id `0`, and again without an id: two edges. -/
example : ((connect 0 (.key (.str "a")) (.key (.str "b")) {} .warn >>= fun e =>
      connect 0 (.key (.str "a")) (.key (.str "b")) { id := some (.int 0) } .warn >>= fun f =>
      connect 0 (.key (.str "a")) (.key (.str "b")) {} .warn >>= fun e' =>
      pure (decide (e = f), decide (e = e'))) demo).1 = .ok (false, true) := by decide

example : Reachable demo := demo_reachable

end Verif
