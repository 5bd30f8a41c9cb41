import Verif.Model.Copy
import Verif.Lemmas.RunGraph
import Mathlib.Data.List.Nodup
/-!
# What a run of `copy` does
-/
namespace Verif
open M

/-- A dictionary of edges with the edges replaced by their copies. -/
def Memo.dict (m : Memo) (d : Dict EdgeId ERef) : Dict EdgeId ERef := d.map (fun p => (p.1, m.edge p.2))

/-- The memo only grows. -/
def Memo.Le (m m' : Memo) : Prop := ∀ e v, dget m.edges e = some v → dget m'.edges e = some v

theorem Memo.Le.refl (m : Memo) : m.Le m := fun _ _ h => h

theorem Memo.Le.trans {a b c : Memo} (h : a.Le b) (h' : b.Le c) : a.Le c := fun e v hv => h' e v (h e v hv)

theorem Memo.Le.edge {m m' : Memo} (h : m.Le m') {e : ERef} (he : e ∈ dkeys m.edges) : m'.edge e = m.edge e := by
  have := dget_isSome.2 he
  obtain ⟨v, hv⟩ := Option.isSome_iff_exists.1 this
  simp only [Memo.edge, hv, h e v hv]

theorem Memo.Le.mem {m m' : Memo} (h : m.Le m') {e : ERef} (he : e ∈ dkeys m.edges) : e ∈ dkeys m'.edges := by
  have := dget_isSome.2 he
  obtain ⟨v, hv⟩ := Option.isSome_iff_exists.1 this
  have := h e v hv
  exact dget_isSome.1 (by rw [this]; rfl)

theorem Memo.Le.dict {m m' : Memo} (h : m.Le m') {d : Dict EdgeId ERef} (hd : ∀ p ∈ d, p.2 ∈ dkeys m.edges) :
    m'.dict d = m.dict d := by
  refine List.map_congr_left fun p hp => ?_
  rw [h.edge (hd p hp)]

/-- The edge as it is between `__setstate__` and `update_edges`. -/
def bareEdge (o : EdgeObj) (st : Option SRef) : EdgeObj := { o with graph := none, start := none, stop := none, style := st }

/-- The node as it is between `__setstate__` and `update_edges`. -/
def bareNode (o : NodeObj) (out inn : Dict EdgeId ERef) : NodeObj :=
  { o with graph := none, outE := out, inE := inn, outHaveStart := false, inHaveEnd := false }

/-- The state while `deepcopy` runs on a heap `h0`. -/
structure Copied (h0 h : Heap) (m : Memo) : Prop where
  graph : h.graph = h0.graph
  nG : h.nG = h0.nG
  edgeOld : ∀ e, e < h0.nE → h.edge e = h0.edge e
  edgeFar : ∀ e, h.nE ≤ e → h.edge e = h0.edge e
  edgeNew : ∀ e, e ∈ dkeys m.edges → e < h0.nE ∧ h0.nE ≤ m.edge e ∧ m.edge e < h.nE ∧
    ∃ st, h.edge (m.edge e) = bareEdge (h0.edge e) st ∧ (st = none ↔ (h0.edge e).style = none)
  edgeInj : ∀ e f, e ∈ dkeys m.edges → f ∈ dkeys m.edges → m.edge e = m.edge f → e = f
  edgeAll : ∀ x, h0.nE ≤ x → x < h.nE → ∃ e ∈ dkeys m.edges, m.edge e = x
  nE : h0.nE ≤ h.nE
  nodeOld : ∀ n, n < h0.nN → h.node n = h0.node n
  nodeFar : ∀ n, h.nN ≤ n → h.node n = h0.node n
  nodeNew : ∀ n, n ∈ dkeys m.nodes → n < h0.nN ∧ h0.nN ≤ m.node n ∧ m.node n < h.nN ∧
    (∀ p ∈ (h0.node n).outE, p.2 ∈ dkeys m.edges) ∧ (∀ p ∈ (h0.node n).inE, p.2 ∈ dkeys m.edges) ∧
    h.node (m.node n) = bareNode (h0.node n) (m.dict (h0.node n).outE) (m.dict (h0.node n).inE)
  nodeInj : ∀ n k, n ∈ dkeys m.nodes → k ∈ dkeys m.nodes → m.node n = m.node k → n = k
  nodeAll : ∀ x, h0.nN ≤ x → x < h.nN → ∃ n ∈ dkeys m.nodes, m.node n = x
  nN : h0.nN ≤ h.nN

theorem Copied.start (h : Heap) : Copied h h {} where
  graph := rfl
  nG := rfl
  edgeOld _ _ := rfl
  edgeFar _ _ := rfl
  edgeNew _ he := by simp [dkeys] at he
  edgeInj _ _ he := by simp [dkeys] at he
  edgeAll x h1 h2 := absurd h2 (Nat.not_lt.2 h1)
  nE := Nat.le_refl _
  nodeOld _ _ := rfl
  nodeFar _ _ := rfl
  nodeNew _ he := by simp [dkeys] at he
  nodeInj _ _ he := by simp [dkeys] at he
  nodeAll x h1 h2 := absurd h2 (Nat.not_lt.2 h1)
  nN := Nat.le_refl _

/-- What the copies keep of the heap they are made in. -/
structure EdgesOnly (h h' : Heap) : Prop where
  node : h'.node = h.node
  nN : h'.nN = h.nN
  warns : h'.warns = h.warns

theorem EdgesOnly.trans {a b c : Heap} (h : EdgesOnly a b) (h' : EdgesOnly b c) : EdgesOnly a c :=
  ⟨h'.node.trans h.node, h'.nN.trans h.nN, h'.warns.trans h.warns⟩

theorem dkeys_dset {K V : Type} [DecidableEq K] {d : Dict K V} {k x : K} {v : V} :
    x ∈ dkeys (dset d k v) ↔ x = k ∨ x ∈ dkeys d := by
  unfold dkeys
  rw [← dget_isSome, ← dget_isSome, dget_dset]
  by_cases e : k = x
  · simp [e]
  · simp [e, Ne.symm e]

theorem run_copyStyle (m : Memo) (s : Option SRef) (h : Heap) : ∃ st m' k, copyStyle m s h = (.ok (st, m'), { h with nStyle := k }) ∧
    m'.nodes = m.nodes ∧ m'.edges = m.edges ∧ (st = none ↔ s = none) := by
  cases s with
  | none => exact ⟨none, m, h.nStyle, rfl, rfl, rfl, by simp⟩
  | some s =>
    unfold copyStyle
    cases hd : dget m.styles s with
    | some s' => exact ⟨some s', m, h.nStyle, by simp [hd], rfl, rfl, by simp⟩
    | none =>
      refine ⟨some h.nStyle, { m with styles := dset m.styles s h.nStyle }, h.nStyle + 1, ?_, rfl, rfl, by simp⟩
      simp only [hd, bind_apply, newStyle, pure_apply]

theorem run_copyEdge {h0 h : Heap} {m : Memo} (C : Copied h0 h m) {e : ERef} (he : e < h0.nE) :
    ∃ m' h', copyEdge m e h = (.ok (m'.edge e, m'), h') ∧ Copied h0 h' m' ∧ EdgesOnly h h' ∧ m.Le m' ∧ e ∈ dkeys m'.edges ∧
      m'.nodes = m.nodes ∧ ∀ k ∈ dkeys m'.edges, k = e ∨ k ∈ dkeys m.edges := by
  unfold copyEdge
  cases hd : dget m.edges e with
  | some e' =>
    refine ⟨m, h, ?_, C, ⟨rfl, rfl, rfl⟩, .refl m, dget_isSome.1 (by rw [hd]; rfl), rfl, fun k hk => .inr hk⟩
    simp only [pure_apply, Memo.edge, hd, Option.getD_some]
  | none =>
    obtain ⟨st, m1, k, hrun, hmn, hme, hst⟩ := run_copyStyle m (h.edge e).style h
    have hnot : e ∉ dkeys m.edges := dget_none.1 hd
    let m' : Memo := { m1 with edges := dset m1.edges e h.nE }
    let h' : Heap := { h with nStyle := k, edge := upd h.edge h.nE (bareEdge (h.edge e) st), nE := h.nE + 1 }
    have hval : ∀ x, dget m'.edges x = if e = x then some h.nE else dget m.edges x := by
      intro x
      show dget (dset m1.edges e h.nE) x = _
      rw [dget_dset, hme]
    have hle : m.Le m' := by
      intro x v hv
      rw [hval]
      by_cases ex : e = x
      · subst ex; rw [hd] at hv; exact absurd hv (by simp)
      · rw [if_neg ex, hv]
    have hedge : m'.edge e = h.nE := by
      show (dget m'.edges e).getD 0 = _
      rw [hval, if_pos rfl]; rfl
    have hkeys : ∀ x, x ∈ dkeys m'.edges ↔ x = e ∨ x ∈ dkeys m.edges := by
      intro x
      show x ∈ dkeys (dset m1.edges e h.nE) ↔ _
      rw [dkeys_dset, hme]
    have hnodes : m'.nodes = m.nodes := hmn
    refine ⟨m', h', ?_, ?_, ⟨rfl, rfl, rfl⟩, hle, (hkeys e).2 (.inl rfl), hnodes, fun x hx => (hkeys x).1 hx⟩
    · simp only [bind_apply, look_apply, hrun, newEdge, pure_apply, hedge]
      rfl
    · have hnode : ∀ n, m'.node n = m.node n := fun n => by simp only [Memo.node, hnodes]
      constructor
      · exact C.graph
      · exact C.nG
      · intro x hx
        show upd h.edge h.nE _ x = _
        rw [upd_ne _ _ (Nat.ne_of_lt (Nat.lt_of_lt_of_le hx C.nE))]
        exact C.edgeOld x hx
      · intro x hx
        have hx : h.nE + 1 ≤ x := hx
        show upd h.edge h.nE _ x = _
        rw [upd_ne _ _ (Nat.ne_of_gt hx)]
        exact C.edgeFar x (Nat.le_of_succ_le hx)
      · intro x hx
        rcases (hkeys x).1 hx with rfl | hx
        · rw [hedge]
          refine ⟨he, C.nE, Nat.lt_succ_self _, st, ?_, ?_⟩
          · show upd h.edge h.nE _ h.nE = _
            rw [upd_same, C.edgeOld x he]
          · rw [hst, C.edgeOld x he]
        · rw [hle.edge hx]
          obtain ⟨h1, h2, h3, st', h4, h5⟩ := C.edgeNew x hx
          refine ⟨h1, h2, Nat.lt_succ_of_lt h3, st', ?_, h5⟩
          show upd h.edge h.nE _ _ = _
          rw [upd_ne _ _ (Nat.ne_of_lt h3), h4]
      · intro x y hx hy hxy
        rcases (hkeys x).1 hx with ex | hx2 <;> rcases (hkeys y).1 hy with ey | hy2
        · rw [ex, ey]
        · rw [ex, hedge, hle.edge hy2] at hxy
          exact absurd hxy.symm (Nat.ne_of_lt (C.edgeNew y hy2).2.2.1)
        · rw [ey, hedge, hle.edge hx2] at hxy
          exact absurd hxy (Nat.ne_of_lt (C.edgeNew x hx2).2.2.1)
        · rw [hle.edge hx2, hle.edge hy2] at hxy
          exact C.edgeInj x y hx2 hy2 hxy
      · intro x hx hx'
        rcases Nat.lt_or_ge x h.nE with hlt | hge
        · obtain ⟨y, hy, hyx⟩ := C.edgeAll x hx hlt
          exact ⟨y, hle.mem hy, by rw [hle.edge hy, hyx]⟩
        · exact ⟨e, (hkeys e).2 (.inl rfl), by rw [hedge]; exact Nat.le_antisymm hge (Nat.le_of_lt_succ hx')⟩
      · exact Nat.le_succ_of_le C.nE
      · exact C.nodeOld
      · exact C.nodeFar
      · intro n hn
        rw [hnodes] at hn
        rw [hnode]
        obtain ⟨h1, h2, h3, h4, h5, h6⟩ := C.nodeNew n hn
        refine ⟨h1, h2, h3, fun p hp => hle.mem (h4 p hp), fun p hp => hle.mem (h5 p hp), ?_⟩
        rw [hle.dict h4, hle.dict h5]
        exact h6
      · intro n k' hn hk hnk
        rw [hnodes] at hn hk
        rw [hnode, hnode] at hnk
        exact C.nodeInj n k' hn hk hnk
      · intro x hx hx'
        obtain ⟨n, hn, e⟩ := C.nodeAll x hx hx'
        exact ⟨n, by rw [hnodes]; exact hn, by rw [hnode, e]⟩
      · exact C.nN

theorem run_copyEdgeDict {h0 : Heap} : ∀ (d : Dict EdgeId ERef) {h : Heap} {m : Memo}, Copied h0 h m →
    (∀ p ∈ d, p.2 < h0.nE) →
    ∃ m' h', copyEdgeDict m d h = (.ok (m'.dict d, m'), h') ∧ Copied h0 h' m' ∧ EdgesOnly h h' ∧ m.Le m' ∧
      (∀ p ∈ d, p.2 ∈ dkeys m'.edges) ∧ m'.nodes = m.nodes ∧
      ∀ k ∈ dkeys m'.edges, k ∈ d.map Prod.snd ∨ k ∈ dkeys m.edges := by
  intro d
  induction d with
  | nil =>
    intro h m C _
    exact ⟨m, h, rfl, C, ⟨rfl, rfl, rfl⟩, .refl m, by simp, rfl, fun k hk => .inr hk⟩
  | cons p d ih =>
    intro h m C hd
    obtain ⟨m1, h1, hr1, C1, E1, L1, k1, n1, s1⟩ := run_copyEdge C (hd p (by simp))
    obtain ⟨m2, h2, hr2, C2, E2, L2, k2, n2, s2⟩ := ih C1 (fun q hq => hd q (by simp [hq]))
    refine ⟨m2, h2, ?_, C2, E1.trans E2, L1.trans L2, ?_, n2.trans n1, ?_⟩
    · simp only [copyEdgeDict, bind_apply, hr1, hr2, pure_apply]
      show _ = (Except.ok ((p.1, m2.edge p.2) :: m2.dict d, m2), h2)
      rw [L2.edge k1]
    · intro q hq
      rcases List.mem_cons.1 hq with rfl | hq
      · exact L2.mem k1
      · exact k2 q hq
    · intro k hk
      rcases s2 k hk with hk | hk
      · exact .inl (by simp only [List.map_cons, List.mem_cons]; exact .inr hk)
      · rcases s1 k hk with rfl | hk
        · exact .inl (by simp)
        · exact .inr hk

/-- What is needed of the originals. -/
def EdgesBelow (h0 : Heap) (n : NRef) : Prop :=
  n < h0.nN ∧ (∀ p ∈ (h0.node n).outE, p.2 < h0.nE) ∧ (∀ p ∈ (h0.node n).inE, p.2 < h0.nE)

theorem run_copyNode {h0 h : Heap} {m : Memo} (C : Copied h0 h m) {n : NRef} (hn : EdgesBelow h0 n)
    (hnew : n ∉ dkeys m.nodes) :
    ∃ m' h', copyNode m n h = (.ok (m'.node n, m'), h') ∧ Copied h0 h' m' ∧
      (∀ k, k ∈ dkeys m'.nodes ↔ k = n ∨ k ∈ dkeys m.nodes) ∧ (∀ k ∈ dkeys m.nodes, m'.node k = m.node k) ∧
      m.Le m' ∧ h'.warns = h.warns ∧
      ∀ k ∈ dkeys m'.edges, (∃ p ∈ (h0.node n).outE ++ (h0.node n).inE, p.2 = k) ∨ k ∈ dkeys m.edges := by
  obtain ⟨hlt, ho, hi⟩ := hn
  have hd : dget m.nodes n = none := dget_none.2 hnew
  have eo : h.node n = h0.node n := C.nodeOld n hlt
  obtain ⟨m1, h1, hr1, C1, E1, L1, k1, n1, s1⟩ := run_copyEdgeDict (h0.node n).outE C ho
  obtain ⟨m2, h2, hr2, C2, E2, L2, k2, n2, s2⟩ := run_copyEdgeDict (h0.node n).inE C1 hi
  have k1' : ∀ p ∈ (h0.node n).outE, p.2 ∈ dkeys m2.edges := fun p hp => L2.mem (k1 p hp)
  have nn : m2.nodes = m.nodes := n2.trans n1
  have hN : h2.nN = h.nN := E2.nN.trans E1.nN
  let m' : Memo := { m2 with nodes := dset m2.nodes n h2.nN }
  let o : NodeObj := bareNode (h0.node n) (m2.dict (h0.node n).outE) (m2.dict (h0.node n).inE)
  let h' : Heap := { h2 with node := upd h2.node h2.nN o, nN := h2.nN + 1 }
  have hval : ∀ x, dget m'.nodes x = if n = x then some h2.nN else dget m2.nodes x := by
    intro x
    show dget (dset m2.nodes n h2.nN) x = _
    rw [dget_dset]
  have hself : m'.node n = h2.nN := by
    show (dget m'.nodes n).getD 0 = _
    rw [hval, if_pos rfl]; rfl
  have hkeys : ∀ x, x ∈ dkeys m'.nodes ↔ x = n ∨ x ∈ dkeys m2.nodes := fun x => dkeys_dset
  have hother : ∀ k, k ∈ dkeys m2.nodes → m'.node k = m2.node k := by
    intro k hk
    have : n ≠ k := by
      rintro rfl
      rw [nn] at hk
      exact hnew hk
    simp only [Memo.node, hval, if_neg this]
  refine ⟨m', h', ?_, ?_, ?_, ?_, L1.trans L2, E2.warns.trans E1.warns, ?_⟩
  · simp only [copyNode, hd, bind_apply, look_apply, eo, hr1, hr2, newNode, pure_apply, hself]
    rw [← L2.dict k1]
    rfl
  · constructor
    · exact C2.graph
    · exact C2.nG
    · exact C2.edgeOld
    · exact C2.edgeFar
    · exact C2.edgeNew
    · exact C2.edgeInj
    · exact C2.edgeAll
    · exact C2.nE
    · intro x hx
      show upd h2.node h2.nN o x = _
      rw [upd_ne _ _ (Nat.ne_of_lt (Nat.lt_of_lt_of_le hx C2.nN))]
      exact C2.nodeOld x hx
    · intro x hx
      have hx : h2.nN + 1 ≤ x := hx
      show upd h2.node h2.nN o x = _
      rw [upd_ne _ _ (Nat.ne_of_gt hx)]
      exact C2.nodeFar x (Nat.le_of_succ_le hx)
    · intro x hx
      rcases (hkeys x).1 hx with rfl | hx
      · rw [hself]
        refine ⟨hlt, C2.nN, Nat.lt_succ_self _, k1', k2, ?_⟩
        show upd h2.node h2.nN o h2.nN = _
        rw [upd_same]
        rfl
      · rw [hother x hx]
        obtain ⟨q1, q2, q3, q4, q5, q6⟩ := C2.nodeNew x hx
        refine ⟨q1, q2, Nat.lt_succ_of_lt q3, q4, q5, ?_⟩
        show upd h2.node h2.nN o _ = _
        rw [upd_ne _ _ (Nat.ne_of_lt q3), q6]
        rfl
    · intro x y hx hy hxy
      rcases (hkeys x).1 hx with ex | hx2 <;> rcases (hkeys y).1 hy with ey | hy2
      · rw [ex, ey]
      · rw [ex, hself, hother y hy2] at hxy
        exact absurd hxy.symm (Nat.ne_of_lt (C2.nodeNew y hy2).2.2.1)
      · rw [ey, hself, hother x hx2] at hxy
        exact absurd hxy (Nat.ne_of_lt (C2.nodeNew x hx2).2.2.1)
      · rw [hother x hx2, hother y hy2] at hxy
        exact C2.nodeInj x y hx2 hy2 hxy
    · intro x hx hx'
      rcases Nat.lt_or_ge x h2.nN with hlt' | hge
      · obtain ⟨y, hy, hyx⟩ := C2.nodeAll x hx hlt'
        exact ⟨y, (hkeys y).2 (.inr hy), by rw [hother y hy, hyx]⟩
      · exact ⟨n, (hkeys n).2 (.inl rfl), by rw [hself]; exact Nat.le_antisymm hge (Nat.le_of_lt_succ hx')⟩
    · exact Nat.le_succ_of_le C2.nN
  · intro k
    rw [hkeys, nn]
  · intro k hk
    rw [← nn] at hk
    rw [hother k hk]
    simp only [Memo.node, nn]
  · intro k hk
    rcases s2 k hk with hk | hk
    · obtain ⟨p, hp, e⟩ := List.mem_map.1 hk
      exact .inl ⟨p, List.mem_append.2 (.inr hp), e⟩
    · rcases s1 k hk with hk | hk
      · obtain ⟨p, hp, e⟩ := List.mem_map.1 hk
        exact .inl ⟨p, List.mem_append.2 (.inl hp), e⟩
      · exact .inr hk

theorem run_copyNodeDict {h0 : Heap} : ∀ (d : Dict Key NRef) {h : Heap} {m : Memo}, Copied h0 h m →
    (∀ p ∈ d, EdgesBelow h0 p.2) → (d.map Prod.snd).Nodup → (∀ p ∈ d, p.2 ∉ dkeys m.nodes) →
    ∃ m' h', copyNodeDict m d h = (.ok (d.map (fun p => (p.1, m'.node p.2)), m'), h') ∧ Copied h0 h' m' ∧
      (∀ k, k ∈ dkeys m'.nodes ↔ k ∈ d.map Prod.snd ∨ k ∈ dkeys m.nodes) ∧ (∀ k ∈ dkeys m.nodes, m'.node k = m.node k) ∧
      h'.warns = h.warns ∧
      ∀ k ∈ dkeys m'.edges, (∃ n ∈ d.map Prod.snd, ∃ p ∈ (h0.node n).outE ++ (h0.node n).inE, p.2 = k) ∨ k ∈ dkeys m.edges := by
  intro d
  induction d with
  | nil =>
    intro h m C _ _ _
    exact ⟨m, h, rfl, C, by simp, fun _ _ => rfl, rfl, fun k hk => .inr hk⟩
  | cons p d ih =>
    intro h m C hd hnd hnew
    rw [List.map_cons, List.nodup_cons] at hnd
    obtain ⟨m1, h1, hr1, C1, key1, o1, _, w1, s1⟩ := run_copyNode C (hd p (by simp)) (hnew p (by simp))
    obtain ⟨m2, h2, hr2, C2, key2, o2, w2, s2⟩ := ih C1 (fun q hq => hd q (by simp [hq])) hnd.2 (by
      intro q hq hk
      rcases (key1 q.2).1 hk with e | hk
      · exact hnd.1 (by rw [← e]; exact List.mem_map_of_mem hq)
      · exact hnew q (by simp [hq]) hk)
    refine ⟨m2, h2, ?_, C2, ?_, ?_, w2.trans w1, ?_⟩
    · simp only [copyNodeDict, bind_apply, hr1, hr2, pure_apply, List.map_cons]
      rw [o2 p.2 ((key1 p.2).2 (.inl rfl))]
    · intro k
      rw [key2, key1, List.map_cons, List.mem_cons]
      constructor
      · rintro (h | h | h)
        · exact .inl (.inr h)
        · exact .inl (.inl h)
        · exact .inr h
      · rintro ((h | h) | h)
        · exact .inr (.inl h)
        · exact .inl h
        · exact .inr (.inr h)
    · intro k hk
      rw [o2 k ((key1 k).2 (.inr hk)), o1 k hk]
    · intro k hk
      rcases s2 k hk with ⟨n, hn, hp⟩ | hk
      · exact .inl ⟨n, by rw [List.map_cons]; exact List.mem_cons_of_mem _ hn, hp⟩
      · rcases s1 k hk with hp | hk
        · exact .inl ⟨p.2, by simp, hp⟩
        · exact .inr hk

/-! ## Linking -/

theorem run_setGraphs (g : GRef) : ∀ (ns : List NRef) (h : Heap), setGraphs g ns h =
    (.ok (), { h with node := fun x => if x ∈ ns then { h.node x with graph := some g } else h.node x }) := by
  intro ns
  induction ns with
  | nil => intro h; simp [setGraphs]
  | cons n ns ih =>
    intro h
    simp only [setGraphs, bind_apply, modNode, ih]
    congr 2
    funext x
    by_cases hx : x = n
    · subst hx
      by_cases hm : x ∈ ns <;> simp [hm]
    · simp [hx]

theorem run_setStarts (n : NRef) (g : Option GRef) : ∀ (es : List ERef) (h : Heap), setStarts n g es h =
    (.ok (), { h with edge := fun x => if x ∈ es then { h.edge x with start := some n, graph := g } else h.edge x }) := by
  intro es
  induction es with
  | nil => intro h; simp [setStarts]
  | cons e es ih =>
    intro h
    simp only [setStarts, bind_apply, modEdge, ih]
    congr 2
    funext x
    by_cases hx : x = e
    · subst hx
      by_cases hm : x ∈ es <;> simp [hm]
    · simp [hx]

theorem run_setEnds (n : NRef) (g : Option GRef) : ∀ (es : List ERef) (h : Heap), setEnds n g es h =
    (.ok (), { h with edge := fun x => if x ∈ es then { h.edge x with stop := some n, graph := g } else h.edge x }) := by
  intro es
  induction es with
  | nil => intro h; simp [setEnds]
  | cons e es ih =>
    intro h
    simp only [setEnds, bind_apply, modEdge, ih]
    congr 2
    funext x
    by_cases hx : x = e
    · subst hx
      by_cases hm : x ∈ es <;> simp [hm]
    · simp [hx]

/-- The node after `update_nodes`. -/
def linked (g : GRef) (o : NodeObj) : NodeObj := { o with graph := some g, outHaveStart := true, inHaveEnd := true }

/-- An edge after its ends were set. -/
def withEnds (o : EdgeObj) (g : Option GRef) (s t : Option NRef) : EdgeObj := { o with graph := g, start := s, stop := t }

/-- What the loop of `update_nodes` does to `h` for the nodes `ns`. -/
structure Linked (g : GRef) (ns : List NRef) (h h' : Heap) : Prop where
  graph : h'.graph = h.graph
  nG : h'.nG = h.nG
  nN : h'.nN = h.nN
  nE : h'.nE = h.nE
  warns : h'.warns = h.warns
  nodeIn : ∀ n ∈ ns, h'.node n = linked g (h.node n)
  nodeOut : ∀ n, n ∉ ns → h'.node n = h.node n
  rest : ∀ x, h'.edge x = withEnds (h.edge x) (h'.edge x).graph (h'.edge x).start (h'.edge x).stop
  startIn : ∀ n ∈ ns, ∀ x ∈ dvals (h.node n).outE, (h'.edge x).start = some n ∧ (h'.edge x).graph = some g
  stopIn : ∀ n ∈ ns, ∀ x ∈ dvals (h.node n).inE, (h'.edge x).stop = some n ∧ (h'.edge x).graph = some g
  start : ∀ x, (∀ n ∈ ns, x ∉ dvals (h.node n).outE) → (h'.edge x).start = (h.edge x).start
  stop : ∀ x, (∀ n ∈ ns, x ∉ dvals (h.node n).inE) → (h'.edge x).stop = (h.edge x).stop
  far : ∀ x, (∀ n ∈ ns, x ∉ dvals (h.node n).outE ∧ x ∉ dvals (h.node n).inE) → (h'.edge x).graph = (h.edge x).graph

theorem run_updateEdges {n : NRef} {h : Heap} (ho : (h.node n).outHaveStart = false) (hi : (h.node n).inHaveEnd = false) :
    updateEdges n h = (.ok (), { h with
      node := upd h.node n { h.node n with outHaveStart := true, inHaveEnd := true },
      edge := fun x =>
        let o := if x ∈ dvals (h.node n).outE then { h.edge x with start := some n, graph := (h.node n).graph } else h.edge x
        if x ∈ dvals (h.node n).inE then { o with stop := some n, graph := (h.node n).graph } else o }) := by
  simp only [updateEdges, bind_apply, look_apply, onlyIf, ho, hi, if_true, run_setStarts, run_setEnds, modNode, upd_same]
  congr 2
  funext x
  by_cases hx : x = n
  · subst hx; simp
  · simp [upd_ne _ _ hx]

theorem run_updateNodesLoop (g : GRef) : ∀ (ns : List NRef) (h : Heap), ns.Nodup →
    (∀ n ∈ ns, (h.node n).outHaveStart = false ∧ (h.node n).inHaveEnd = false) →
    (∀ n ∈ ns, ∀ n' ∈ ns, ∀ x, x ∈ dvals (h.node n).outE → x ∈ dvals (h.node n').outE → n = n') →
    (∀ n ∈ ns, ∀ n' ∈ ns, ∀ x, x ∈ dvals (h.node n).inE → x ∈ dvals (h.node n').inE → n = n') →
    ∃ h', updateNodesLoop g ns h = (.ok (), h') ∧ Linked g ns h h' := by
  intro ns
  induction ns with
  | nil =>
    intro h _ _ _ _
    refine ⟨h, rfl, ⟨rfl, rfl, rfl, rfl, rfl, by simp, fun _ _ => rfl, fun _ => rfl, by simp, by simp, fun _ _ => rfl,
      fun _ _ => rfl, fun _ _ => rfl⟩⟩
  | cons n ns ih =>
    intro h hnd hfl hout hinn
    rw [List.nodup_cons] at hnd
    obtain ⟨hfo, hfi⟩ := hfl n (by simp)
    let h1 : Heap := { h with node := upd h.node n { h.node n with graph := some g } }
    have hn1 : h1.node n = { h.node n with graph := some g } := upd_same _ _ _
    have hrun1 := run_updateEdges (n := n) (h := h1) (by rw [hn1]; exact hfo) (by rw [hn1]; exact hfi)
    rw [hn1] at hrun1
    simp only at hrun1
    generalize hh2 : ({ h1 with
      node := upd h1.node n { graph := some g, id := (h.node n).id, value := (h.node n).value, label := (h.node n).label, tooltip := (h.node n).tooltip, frozen := (h.node n).frozen, params := (h.node n).params, style := (h.node n).style, outE := (h.node n).outE, inE := (h.node n).inE, outHaveStart := true, inHaveEnd := true, index := (h.node n).index },
      edge := fun x =>
        if x ∈ dvals (h.node n).inE then { (if x ∈ dvals (h.node n).outE then { h1.edge x with start := some n, graph := some g } else h1.edge x) with stop := some n, graph := some g } else (if x ∈ dvals (h.node n).outE then { h1.edge x with start := some n, graph := some g } else h1.edge x) } : Heap) = h2 at hrun1
    have hnode : ∀ x, h2.node x = if x = n then linked g (h.node n) else h.node x := by
      intro x
      rw [← hh2]
      by_cases hx : x = n
      · subst hx; simp [linked]
      · simp only [upd_ne _ _ hx, if_neg hx]; exact upd_ne _ _ hx
    have hedge : ∀ x, h2.edge x =
        if x ∈ dvals (h.node n).inE then { (if x ∈ dvals (h.node n).outE then { h.edge x with start := some n, graph := some g } else h.edge x) with stop := some n, graph := some g } else (if x ∈ dvals (h.node n).outE then { h.edge x with start := some n, graph := some g } else h.edge x) := by
      intro x; rw [← hh2]
    have hother : ∀ k ∈ ns, h2.node k = h.node k := by
      intro k hk
      rw [hnode, if_neg]
      rintro rfl
      exact hnd.1 hk
    obtain ⟨h3, hrun3, L⟩ := ih h2 hnd.2
      (fun k hk => by rw [hother k hk]; exact hfl k (by simp [hk]))
      (fun k hk k' hk' x hx hx' => by
        rw [hother k hk] at hx; rw [hother k' hk'] at hx'
        exact hout k (by simp [hk]) k' (by simp [hk']) x hx hx')
      (fun k hk k' hk' x hx hx' => by
        rw [hother k hk] at hx; rw [hother k' hk'] at hx'
        exact hinn k (by simp [hk]) k' (by simp [hk']) x hx hx')
    have hstart : ∀ x, (h2.edge x).start = if x ∈ dvals (h.node n).outE then some n else (h.edge x).start := by
      intro x; rw [hedge]; split <;> split <;> rfl
    have hstop : ∀ x, (h2.edge x).stop = if x ∈ dvals (h.node n).inE then some n else (h.edge x).stop := by
      intro x; rw [hedge]; split <;> split <;> rfl
    have hgr : ∀ x, (h2.edge x).graph =
        if x ∈ dvals (h.node n).outE ∨ x ∈ dvals (h.node n).inE then some g else (h.edge x).graph := by
      intro x; rw [hedge]
      by_cases a : x ∈ dvals (h.node n).outE <;> by_cases b : x ∈ dvals (h.node n).inE <;> simp [a, b]
    have hrest : ∀ x, h2.edge x = withEnds (h.edge x) (h2.edge x).graph (h2.edge x).start (h2.edge x).stop := by
      intro x; rw [hedge]; split <;> split <;> rfl
    refine ⟨h3, ?_, ?_⟩
    · simp only [updateNodesLoop, bind_apply, modNode]
      rw [show updateEdges n h1 = _ from hrun1]
      exact hrun3
    · constructor
      · rw [L.graph, ← hh2]
      · rw [L.nG, ← hh2]
      · rw [L.nN, ← hh2]
      · rw [L.nE, ← hh2]
      · rw [L.warns, ← hh2]
      · intro k hk
        rcases List.mem_cons.1 hk with rfl | hk
        · rw [L.nodeOut k hnd.1, hnode, if_pos rfl]
        · rw [L.nodeIn k hk, hother k hk]
      · intro k hk
        rw [L.nodeOut k (fun h => hk (by simp [h])), hnode, if_neg (fun e => hk (by simp [e]))]
      · intro x
        rw [L.rest x, hrest x]
        rfl
      · intro k hk x hx
        rcases List.mem_cons.1 hk with rfl | hk
        · by_cases ho : ∃ k' ∈ ns, x ∈ dvals (h2.node k').outE
          · obtain ⟨k', hk', hx'⟩ := ho
            rw [hother k' hk'] at hx'
            have := hout k (by simp) k' (by simp [hk']) x hx hx'
            subst this
            exact absurd hk' hnd.1
          · have h1 := L.start x (fun k' hk' hx' => ho ⟨k', hk', hx'⟩)
            rw [hstart, if_pos hx] at h1
            refine ⟨h1, ?_⟩
            by_cases hi : ∃ k' ∈ ns, x ∈ dvals (h2.node k').inE
            · obtain ⟨k', hk', hx'⟩ := hi
              exact (L.stopIn k' hk' x hx').2
            · rw [L.far x (fun k' hk' => ⟨fun hx' => ho ⟨k', hk', hx'⟩, fun hx' => hi ⟨k', hk', hx'⟩⟩), hgr, if_pos (.inl hx)]
        · rw [← hother k hk] at hx
          exact L.startIn k hk x hx
      · intro k hk x hx
        rcases List.mem_cons.1 hk with rfl | hk
        · by_cases hi : ∃ k' ∈ ns, x ∈ dvals (h2.node k').inE
          · obtain ⟨k', hk', hx'⟩ := hi
            rw [hother k' hk'] at hx'
            have := hinn k (by simp) k' (by simp [hk']) x hx hx'
            subst this
            exact absurd hk' hnd.1
          · have h1 := L.stop x (fun k' hk' hx' => hi ⟨k', hk', hx'⟩)
            rw [hstop, if_pos hx] at h1
            refine ⟨h1, ?_⟩
            by_cases ho : ∃ k' ∈ ns, x ∈ dvals (h2.node k').outE
            · obtain ⟨k', hk', hx'⟩ := ho
              exact (L.startIn k' hk' x hx').2
            · rw [L.far x (fun k' hk' => ⟨fun hx' => ho ⟨k', hk', hx'⟩, fun hx' => hi ⟨k', hk', hx'⟩⟩), hgr, if_pos (.inr hx)]
        · rw [← hother k hk] at hx
          exact L.stopIn k hk x hx
      · intro x hx
        rw [L.start x (fun k hk => by rw [hother k hk]; exact hx k (by simp [hk])), hstart, if_neg (hx n (by simp))]
      · intro x hx
        rw [L.stop x (fun k hk => by rw [hother k hk]; exact hx k (by simp [hk])), hstop, if_neg (hx n (by simp))]
      · intro x hx
        rw [L.far x (fun k hk => by rw [hother k hk]; exact hx k (by simp [hk])), hgr, if_neg]
        rintro (h | h)
        · exact (hx n (by simp)).1 h
        · exact (hx n (by simp)).2 h

/-! ## The whole copy -/

/-- What a successful copy of graph `g` leaves behind: fresh objects `m.node n`, `m.edge e` for the nodes and edges of `g`. -/
structure CopyPost (h h' : Heap) (A : Spec) (g : GRef) (m : Memo) : Prop where
  graphNew : h'.graph h.nG = { nodes := (h.graph g).nodes.map (fun p => (p.1, m.node p.2)), strict := (h.graph g).strict,
                               ordering := (h.graph g).ordering, nodesHaveGraph := true, counter := (h.graph g).counter,
                               overwrite := none }
  graphOld : ∀ x, x ≠ h.nG → h'.graph x = h.graph x
  nG : h'.nG = h.nG + 1
  nN : h.nN ≤ h'.nN
  nE : h.nE ≤ h'.nE
  warns : h'.warns = h.warns
  nodeKeys : ∀ n, n ∈ dkeys m.nodes ↔ ∃ k, (k, n) ∈ (A.graph g).nodes
  nodeOld : ∀ n, n < h.nN → h'.node n = h.node n
  nodeFar : ∀ n, h'.nN ≤ n → h'.node n = h.node n
  nodeNew : ∀ n, n ∈ dkeys m.nodes → h.nN ≤ m.node n ∧ m.node n < h'.nN ∧
    h'.node (m.node n) = { h.node n with graph := some h.nG, outE := m.dict (h.node n).outE, inE := m.dict (h.node n).inE,
                                         outHaveStart := true, inHaveEnd := true }
  nodeInj : ∀ n k, n ∈ dkeys m.nodes → k ∈ dkeys m.nodes → m.node n = m.node k → n = k
  nodeAll : ∀ x, h.nN ≤ x → x < h'.nN → ∃ n ∈ dkeys m.nodes, m.node n = x
  edgeKeys : ∀ e, e ∈ dkeys m.edges ↔ ∃ i, (i, e) ∈ (A.graph g).edges
  edgeOld : ∀ e, e < h.nE → h'.edge e = h.edge e
  edgeFar : ∀ e, h'.nE ≤ e → h'.edge e = h.edge e
  edgeNew : ∀ e, e ∈ dkeys m.edges → h.nE ≤ m.edge e ∧ m.edge e < h'.nE ∧
    ∃ st, h'.edge (m.edge e) = { h.edge e with graph := some h.nG, start := (h.edge e).start.map m.node,
                                               stop := (h.edge e).stop.map m.node, style := st } ∧
      (st = none ↔ (h.edge e).style = none)
  edgeInj : ∀ e f, e ∈ dkeys m.edges → f ∈ dkeys m.edges → m.edge e = m.edge f → e = f
  edgeAll : ∀ x, h.nE ≤ x → x < h'.nE → ∃ e ∈ dkeys m.edges, m.edge e = x

theorem Rep.handlesNodup {h : Heap} {A : Spec} (R : Rep h A) (g : GRef) : ((A.graph g).nodes.map Prod.snd).Nodup := by
  have hk := R.keysNodup g
  have hid : ∀ p ∈ (A.graph g).nodes, (h.node p.2).id = p.1 := fun p hp => (R.nodeOk g p.1 p.2 hp).2.1
  generalize (A.graph g).nodes = l at hk hid
  induction l with
  | nil => simp
  | cons p l ih =>
    rw [List.map_cons, List.nodup_cons] at hk ⊢
    refine ⟨?_, ih hk.2 (fun q hq => hid q (by simp [hq]))⟩
    intro hm
    obtain ⟨q, hq, e⟩ := List.mem_map.1 hm
    refine hk.1 (List.mem_map.2 ⟨q, hq, ?_⟩)
    rw [← hid q (by simp [hq]), e, hid p (by simp)]

theorem Rep.edge_out {h : Heap} {A : Spec} (R : Rep h A) {g : GRef} {i : EdgeId} {e : ERef} (he : (i, e) ∈ (A.graph g).edges) :
    ∃ n, (i.1, n) ∈ (A.graph g).nodes ∧ (h.edge e).start = some n ∧ (i, e) ∈ (h.node n).outE := by
  obtain ⟨s, t, r⟩ := i
  obtain ⟨_, _, _, _, n, m, hn, _, hs, _⟩ := R.edgeOk g s t r e he
  refine ⟨n, hn, hs, ?_⟩
  rw [R.outE g s n hn]
  simp [SGraph.out, he]

theorem Rep.edge_in {h : Heap} {A : Spec} (R : Rep h A) {g : GRef} {i : EdgeId} {e : ERef} (he : (i, e) ∈ (A.graph g).edges) :
    ∃ n, (i.2.1, n) ∈ (A.graph g).nodes ∧ (h.edge e).stop = some n ∧ (i, e) ∈ (h.node n).inE := by
  obtain ⟨s, t, r⟩ := i
  obtain ⟨_, _, _, _, n, m, _, hm, _, hs⟩ := R.edgeOk g s t r e he
  refine ⟨m, hm, hs, ?_⟩
  rw [R.inE g t m hm]
  simp [SGraph.inn, he]

theorem run_graphCopy {h : Heap} {A : Spec} (R : Rep h A) {g : GRef} (hg : g < h.nG)
    (hst : ∀ n ∈ graphNodes h g, (h.node n).style = none) :
    ∃ m h', graphCopy g h = (.ok (h.nG, m), h') ∧ CopyPost h h' A g m := by
  have hne : g ≠ h.nG := Nat.ne_of_lt hg
  have hns : ((dvals (h.graph g).nodes).any fun n => (h.node n).style.isSome) = false := by
    rw [List.any_eq_false]
    intro n hn
    rw [hst n hn]; simp
  have hbelow : ∀ p ∈ (h.graph g).nodes, EdgesBelow h p.2 := by
    intro p hp
    rw [R.nodes] at hp
    refine ⟨(R.nodeOk g p.1 p.2 hp).1, ?_, ?_⟩
    · intro q hq
      rw [R.outE g p.1 p.2 hp] at hq
      exact (R.edgeOk g _ _ _ _ (List.mem_filter.1 hq).1).1
    · intro q hq
      rw [R.inE g p.1 p.2 hp] at hq
      exact (R.edgeOk g _ _ _ _ (List.mem_filter.1 hq).1).1
  have hnd : ((h.graph g).nodes.map Prod.snd).Nodup := by rw [R.nodes]; exact R.handlesNodup g
  obtain ⟨m, h1, hr1, C, key, _, w1, ks⟩ := run_copyNodeDict (h.graph g).nodes (Copied.start h) hbelow hnd (by simp [dkeys])
  have hkey : ∀ n, n ∈ dkeys m.nodes ↔ ∃ k, (k, n) ∈ (A.graph g).nodes := by
    intro n
    rw [key, R.nodes]
    simp [dkeys]
  have hekey : ∀ e, e ∈ dkeys m.edges ↔ ∃ i, (i, e) ∈ (A.graph g).edges := by
    intro e
    constructor
    · intro he
      rcases ks e he with ⟨n, hn, p, hp, e1⟩ | hk
      · rw [R.nodes] at hn
        obtain ⟨q, hq, rfl⟩ := List.mem_map.1 hn
        rw [R.outE g q.1 q.2 hq, R.inE g q.1 q.2 hq] at hp
        rcases List.mem_append.1 hp with hp | hp
        · exact ⟨p.1, by rw [← e1]; exact (List.mem_filter.1 hp).1⟩
        · exact ⟨p.1, by rw [← e1]; exact (List.mem_filter.1 hp).1⟩
      · simp [dkeys] at hk
    · rintro ⟨i, hi⟩
      obtain ⟨n, hn, _, ho⟩ := R.edge_out hi
      exact (C.nodeNew n ((hkey n).2 ⟨_, hn⟩)).2.2.2.1 _ ho
  let ns : List NRef := (h.graph g).nodes.map (fun p => m.node p.2)
  let go : GraphObj := { nodes := (h.graph g).nodes.map (fun p => (p.1, m.node p.2)), strict := (h.graph g).strict, ordering := (h.graph g).ordering, nodesHaveGraph := false, counter := (h.graph g).counter, overwrite := none }
  have hdv : dvals go.nodes = ns := by simp [dvals, go, ns]
  have hnsm : ∀ x, x ∈ ns ↔ ∃ n ∈ dkeys m.nodes, m.node n = x := by
    intro x
    simp only [ns, List.mem_map]
    constructor
    · rintro ⟨p, hp, e⟩
      exact ⟨p.2, (key p.2).2 (.inl (List.mem_map_of_mem hp)), e⟩
    · rintro ⟨n, hn, e⟩
      rcases (key n).1 hn with hn | hn
      · obtain ⟨p, hp, rfl⟩ := List.mem_map.1 hn
        exact ⟨p, hp, e⟩
      · simp [dkeys] at hn
  have hnsnd : ns.Nodup := by
    have : ns = ((h.graph g).nodes.map Prod.snd).map m.node := by simp [ns]
    rw [this]
    refine List.Nodup.map_on ?_ hnd
    intro a ha b hb e
    exact C.nodeInj a b ((key a).2 (.inl ha)) ((key b).2 (.inl hb)) e
  -- after `newGraph`, `setGraphs` and the first `modGraph`
  let h4 : Heap := { h1 with graph := upd h1.graph h1.nG go, nG := h1.nG + 1,
                             node := fun x => if x ∈ ns then { h1.node x with graph := some h1.nG } else h1.node x }
  have hn4 : ∀ n ∈ dkeys m.nodes, h4.node (m.node n) =
      { bareNode (h.node n) (m.dict (h.node n).outE) (m.dict (h.node n).inE) with graph := some h1.nG } := by
    intro n hn
    show (if m.node n ∈ ns then _ else _) = _
    rw [if_pos ((hnsm _).2 ⟨n, hn, rfl⟩), (C.nodeNew n hn).2.2.2.2.2]
  have hout : ∀ n ∈ dkeys m.nodes, ∀ x, x ∈ dvals (h4.node (m.node n)).outE ↔ ∃ p ∈ (h.node n).outE, m.edge p.2 = x := by
    intro n hn x
    rw [hn4 n hn]
    simp only [dvals, bareNode, Memo.dict, List.map_map, List.mem_map, Function.comp]
  have hinn : ∀ n ∈ dkeys m.nodes, ∀ x, x ∈ dvals (h4.node (m.node n)).inE ↔ ∃ p ∈ (h.node n).inE, m.edge p.2 = x := by
    intro n hn x
    rw [hn4 n hn]
    simp only [dvals, bareNode, Memo.dict, List.map_map, List.mem_map, Function.comp]
  -- an edge in the outward (inward) dictionary of a node starts (ends) there
  have hso : ∀ n ∈ dkeys m.nodes, ∀ p ∈ (h.node n).outE, (∃ i, (i, p.2) ∈ (A.graph g).edges) ∧ (h.edge p.2).start = some n := by
    intro n hn p hp
    obtain ⟨k, hk⟩ := (hkey n).1 hn
    rw [R.outE g k n hk] at hp
    obtain ⟨hp, e⟩ := List.mem_filter.1 hp
    have e := of_decide_eq_true e
    obtain ⟨n', hn', hs, _⟩ := R.edge_out hp
    rw [e] at hn'
    have := val_unique (R.keysNodup g) hk hn'
    subst this
    exact ⟨⟨_, hp⟩, hs⟩
  have hsi : ∀ n ∈ dkeys m.nodes, ∀ p ∈ (h.node n).inE, (∃ i, (i, p.2) ∈ (A.graph g).edges) ∧ (h.edge p.2).stop = some n := by
    intro n hn p hp
    obtain ⟨k, hk⟩ := (hkey n).1 hn
    rw [R.inE g k n hk] at hp
    obtain ⟨hp, e⟩ := List.mem_filter.1 hp
    have e := of_decide_eq_true e
    obtain ⟨n', hn', hs, _⟩ := R.edge_in hp
    rw [e] at hn'
    have := val_unique (R.keysNodup g) hk hn'
    subst this
    exact ⟨⟨_, hp⟩, hs⟩
  obtain ⟨h5, hr5, L⟩ := run_updateNodesLoop h1.nG ns h4 hnsnd
    (by
      intro x hx
      obtain ⟨n, hn, rfl⟩ := (hnsm x).1 hx
      rw [hn4 n hn]
      exact ⟨rfl, rfl⟩)
    (by
      intro x hx y hy z hz hz'
      obtain ⟨n, hn, rfl⟩ := (hnsm x).1 hx
      obtain ⟨n', hn', rfl⟩ := (hnsm y).1 hy
      obtain ⟨p, hp, e⟩ := (hout n hn z).1 hz
      obtain ⟨p', hp', e'⟩ := (hout n' hn' z).1 hz'
      obtain ⟨he, hs⟩ := hso n hn p hp
      obtain ⟨he', hs'⟩ := hso n' hn' p' hp'
      have := C.edgeInj _ _ ((hekey _).2 he) ((hekey _).2 he') (e.trans e'.symm)
      rw [this, hs'] at hs
      rw [Option.some.inj hs])
    (by
      intro x hx y hy z hz hz'
      obtain ⟨n, hn, rfl⟩ := (hnsm x).1 hx
      obtain ⟨n', hn', rfl⟩ := (hnsm y).1 hy
      obtain ⟨p, hp, e⟩ := (hinn n hn z).1 hz
      obtain ⟨p', hp', e'⟩ := (hinn n' hn' z).1 hz'
      obtain ⟨he, hs⟩ := hsi n hn p hp
      obtain ⟨he', hs'⟩ := hsi n' hn' p' hp'
      have := C.edgeInj _ _ ((hekey _).2 he) ((hekey _).2 he') (e.trans e'.symm)
      rw [this, hs'] at hs
      rw [Option.some.inj hs])
  have hnG : h1.nG = h.nG := C.nG
  have hg5 : h5.graph = upd h1.graph h1.nG go := L.graph
  have hold : ∀ x, x < h.nN → x ∉ ns := by
    intro x hx hm
    obtain ⟨n, hn, rfl⟩ := (hnsm x).1 hm
    exact absurd (C.nodeNew n hn).2.1 (Nat.not_le.2 hx)
  have hfar : ∀ x, h1.nN ≤ x → x ∉ ns := by
    intro x hx hm
    obtain ⟨n, hn, rfl⟩ := (hnsm x).1 hm
    exact absurd (C.nodeNew n hn).2.2.1 (Nat.not_lt.2 hx)
  have hnotE : ∀ x, (∀ e ∈ dkeys m.edges, m.edge e ≠ x) → ∀ n ∈ ns, x ∉ dvals (h4.node n).outE ∧ x ∉ dvals (h4.node n).inE := by
    intro x hx y hy
    obtain ⟨n, hn, rfl⟩ := (hnsm y).1 hy
    constructor
    · intro hm
      obtain ⟨p, hp, e⟩ := (hout n hn x).1 hm
      exact hx _ ((hekey _).2 (hso n hn p hp).1) e
    · intro hm
      obtain ⟨p, hp, e⟩ := (hinn n hn x).1 hm
      exact hx _ ((hekey _).2 (hsi n hn p hp).1) e
  have hsame : ∀ x, (∀ e ∈ dkeys m.edges, m.edge e ≠ x) → h5.edge x = h1.edge x := by
    intro x hx
    have := hnotE x hx
    rw [L.rest x, L.start x (fun n hn => (this n hn).1), L.stop x (fun n hn => (this n hn).2), L.far x this]
    rfl
  refine ⟨m, { h5 with graph := upd h5.graph h.nG { go with nodesHaveGraph := true } }, ?_, ?_⟩
  · simp only [graphCopy, bind_apply, look_apply, hns, Bool.false_eq_true, if_false, hr1, newGraph, run_setGraphs, modGraph,
      updateNodes, onlyIf, upd_same, pure_apply]
    rw [show dvals ((h.graph g).nodes.map fun p => (p.1, m.node p.2)) = ns from hdv]
    have e4 : ({ graph := upd (upd h1.graph h1.nG go) h1.nG go, node := fun x => if x ∈ ns then { h1.node x with graph := some h1.nG } else h1.node x, edge := h1.edge, nG := h1.nG + 1, nN := h1.nN, nE := h1.nE, nStyle := h1.nStyle, warns := h1.warns } : Heap) = h4 := by
      simp only [upd_upd]
      rfl
    simp only [if_true]
    rw [show updateNodesLoop h1.nG ns _ = updateNodesLoop h1.nG ns h4 from congrArg _ e4, hr5]
    simp only [hg5, upd_same, hnG]
  · constructor
    · show upd h5.graph h.nG _ h.nG = _
      rw [upd_same]
    · intro x hx
      show upd h5.graph h.nG _ x = _
      rw [upd_ne _ _ hx, hg5, hnG, upd_ne _ _ hx, C.graph]
    · show h5.nG = _
      rw [L.nG, ← hnG]
    · show _ ≤ h5.nN
      rw [L.nN]; exact C.nN
    · show _ ≤ h5.nE
      rw [L.nE]; exact C.nE
    · show h5.warns = _
      rw [L.warns]; exact w1
    · exact hkey
    · intro n hn
      show h5.node n = _
      rw [L.nodeOut n (hold n hn)]
      show (if n ∈ ns then _ else _) = _
      rw [if_neg (hold n hn)]
      exact C.nodeOld n hn
    · intro n hn
      have hn : h5.nN ≤ n := hn
      rw [L.nN] at hn
      show h5.node n = _
      rw [L.nodeOut n (hfar n hn)]
      show (if n ∈ ns then _ else _) = _
      rw [if_neg (hfar n hn)]
      exact C.nodeFar n hn
    · intro n hn
      refine ⟨(C.nodeNew n hn).2.1, ?_, ?_⟩
      · show _ < h5.nN
        rw [L.nN]
        exact (C.nodeNew n hn).2.2.1
      · show h5.node _ = _
        rw [L.nodeIn _ ((hnsm _).2 ⟨n, hn, rfl⟩), hn4 n hn, hnG]
        rfl
    · exact C.nodeInj
    · intro x hx hx'
      have hx' : x < h5.nN := hx'
      rw [L.nN] at hx'
      exact C.nodeAll x hx hx'
    · exact hekey
    · intro e he
      show h5.edge e = _
      rw [hsame e (fun f hf e' => absurd (C.edgeNew f hf).2.1 (by rw [e']; exact Nat.not_le.2 he))]
      exact C.edgeOld e he
    · intro e he
      have he : h5.nE ≤ e := he
      rw [L.nE] at he
      show h5.edge e = _
      rw [hsame e (fun f hf e' => absurd (C.edgeNew f hf).2.2.1 (by rw [e']; exact Nat.not_lt.2 he))]
      exact C.edgeFar e he
    · intro e he
      obtain ⟨_, q2, q3, st, q4, q5⟩ := C.edgeNew e he
      refine ⟨q2, ?_, st, ?_, q5⟩
      · show _ < h5.nE
        rw [L.nE]; exact q3
      · obtain ⟨i, hi⟩ := (hekey e).1 he
        obtain ⟨n, hn, hs, ho⟩ := R.edge_out hi
        obtain ⟨k, hk, ht, hi'⟩ := R.edge_in hi
        have hn := (hkey n).2 ⟨_, hn⟩
        have hk := (hkey k).2 ⟨_, hk⟩
        obtain ⟨a1, a2⟩ := L.startIn (m.node n) ((hnsm _).2 ⟨n, hn, rfl⟩) (m.edge e) ((hout n hn _).2 ⟨_, ho, rfl⟩)
        obtain ⟨b1, _⟩ := L.stopIn (m.node k) ((hnsm _).2 ⟨k, hk, rfl⟩) (m.edge e) ((hinn k hk _).2 ⟨_, hi', rfl⟩)
        show h5.edge _ = _
        rw [L.rest, a1, a2, b1, hs, ht, hnG]
        show withEnds (h1.edge _) _ _ _ = _
        rw [q4]
        rfl
    · exact C.edgeInj
    · intro x hx hx'
      have hx' : x < h5.nE := hx'
      rw [L.nE] at hx'
      exact C.edgeAll x hx hx'

end Verif
