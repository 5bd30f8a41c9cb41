import Verif.Props.Traverse
import Verif.Props.Remove
import Verif.Props.Identity
/-!
# C99, C100: how changing a graph changes what can be reached
-/
namespace Verif
open M

/-- The arrows, from the abstract graph. -/
theorem Rep.arrow_iff {h : Heap} {A : Spec} (R : Rep h A) {g : GRef} {n m : NRef} :
    Arrow h g n m ↔ ∃ i e, (i, e) ∈ (A.graph g).edges ∧ (i.1, n) ∈ (A.graph g).nodes ∧ (i.2.1, m) ∈ (A.graph g).nodes := by
  constructor
  · rintro ⟨e, he, h1, h2⟩
    obtain ⟨i, hi⟩ := (liveEdge_iff R).1 he
    obtain ⟨n', m', b1, b2, -, -, -, b6, b7⟩ := R.live_edge hi
    simp only [edgeStart, b1, edgeEnd, b2, Except.ok.injEq] at h1 h2
    subst h1 h2
    exact ⟨i, e, hi, b6, b7⟩
  · rintro ⟨i, e, hi, h1, h2⟩
    obtain ⟨n', m', b1, b2, -, -, -, b6, b7⟩ := R.live_edge hi
    obtain rfl := val_unique (R.keysNodup g) h1 b6
    obtain rfl := val_unique (R.keysNodup g) h2 b7
    exact ⟨e, (liveEdge_iff R).2 ⟨i, hi⟩, by simp [edgeStart, b1], by simp [edgeEnd, b2]⟩

/-- One more arrow, from `n` to `m`: the paths. -/
theorem transGen_insert {α : Type} {R S : α → α → Prop} {n m : α} (hS : ∀ x y, S x y ↔ R x y ∨ (x = n ∧ y = m)) (x y : α) :
    Relation.TransGen S x y ↔ Relation.TransGen R x y ∨
      ((x = n ∨ Relation.TransGen R x n) ∧ (y = m ∨ Relation.TransGen R m y)) := by
  constructor
  · intro p
    induction p with
    | single hs =>
      rcases (hS _ _).1 hs with hr | ⟨rfl, rfl⟩
      · exact .inl (.single hr)
      · exact .inr ⟨.inl rfl, .inl rfl⟩
    | @tail b c _ hs ih =>
      rcases (hS _ _).1 hs with hr | ⟨rfl, rfl⟩
      · rcases ih with ih | ⟨i1, i2⟩
        · exact .inl (ih.tail hr)
        · refine .inr ⟨i1, .inr ?_⟩
          rcases i2 with rfl | i2
          · exact .single hr
          · exact i2.tail hr
      · rcases ih with ih | ⟨i1, -⟩
        · exact .inr ⟨.inr ih, .inl rfl⟩
        · exact .inr ⟨i1, .inl rfl⟩
  · have mono : ∀ {a b}, Relation.TransGen R a b → Relation.TransGen S a b :=
      fun p => Relation.TransGen.mono (fun a b hab => (hS a b).2 (.inl hab)) _ _ p
    rintro (p | ⟨p, q⟩)
    · exact mono p
    · have mid : Relation.TransGen S n m := .single ((hS n m).2 (.inr ⟨rfl, rfl⟩))
      have right : Relation.TransGen S n y := by
        rcases q with rfl | q
        · exact mid
        · exact mid.trans (mono q)
      rcases p with rfl | p
      · exact right
      · exact (mono p).trans right

/-- What a successful `connect` does to the nodes and the arrows. -/
theorem connect_arrows {h h' : Heap} (r : Reachable h) {g : GRef} {s t : NodeArg} {n m : NRef} {a : EdgeArgs} {p : IfExists}
    {e : ERef} (hs : getNode h g s = .ok n) (ht : getNode h g t = .ok m) (hr : connect g s t a p h = (.ok e, h')) :
    (∀ g', (h'.graph g').nodes = (h.graph g').nodes) ∧
    (∀ x y, Arrow h' g x y ↔ Arrow h g x y ∨ (x = n ∧ y = m)) ∧ (∀ x, (h'.node x).graph = (h.node x).graph) ∧
    ∀ g', g' ≠ g → ∀ x y, Arrow h' g' x y ↔ Arrow h g' x y := by
  obtain ⟨A, H⟩ := r.hist
  have R := H.rep
  obtain ⟨ks, -, hn⟩ := R.getNode_ok.1 hs
  obtain ⟨kt, -, hm⟩ := R.getNode_ok.1 ht
  by_cases hnew : (ks, kt, a.raw) ∈ (A.graph g).ids
  · obtain ⟨f, hf⟩ := Rep.mem_ids.1 hnew
    have := R.connect_old hs ht hn hm a p hf
    have R' : Rep h' A := by
      have q : Rep ((p.check (.valueError "already exists") >>= fun _ =>
          edgeUpdate f a.label a.value a.style >>= fun _ => (pure f : M ERef)) h).2 A :=
        ((Calm.check _ _).bind fun _ => (Calm.edgeUpdate _ _ _ _).bind fun _ => Calm.pure _).rep R
      rw [← this, hr] at q
      exact q
    refine ⟨fun g' => by rw [R'.nodes, R.nodes], fun x y => ?_, fun x => by rw [← R'.home, R.home],
      fun g' _ x y => by rw [R'.arrow_iff, R.arrow_iff]⟩
    rw [R'.arrow_iff, R.arrow_iff]
    refine ⟨.inl, ?_⟩
    rintro (q | ⟨rfl, rfl⟩)
    · exact q
    · exact ⟨_, f, hf, hn, hm⟩
  · have := R.connect_new hs ht hn hm a p hnew
    rw [hr] at this
    cases hsr : styleResult none h.nStyle a.style with
    | none => rw [hsr] at this; cases this
    | some sr =>
      rw [hsr] at this
      have R' : Rep h' (A.on g fun G => G.addEdge (ks, kt, a.raw) h.nE) := by
        have e := congrArg Prod.snd this
        simp only at e
        rw [e]
        exact R.newEdge _ hn hm (Rep.raw_ne_cleared a) hnew rfl rfl rfl rfl
      have hN : ∀ g', ((A.on g fun G => G.addEdge (ks, kt, a.raw) h.nE).graph g').nodes = (A.graph g').nodes := by
        intro g'
        by_cases e : g' = g
        · subst e; simp [Spec.on, SGraph.addEdge, hnew]
        · rw [Spec.on_ne _ _ e]
      refine ⟨fun g' => by rw [R'.nodes, R.nodes, hN], fun x y => ?_, fun x => by rw [← R'.home, ← R.home]; rfl, fun g' e x y => ?_⟩
      · rw [R'.arrow_iff, R.arrow_iff]
        simp only [hN]
        have hE : ((A.on g fun G => G.addEdge (ks, kt, a.raw) h.nE).graph g).edges = (A.graph g).edges ++ [((ks, kt, a.raw), h.nE)] := by
          simp [Spec.on, SGraph.addEdge, hnew]
        rw [hE]
        constructor
        · rintro ⟨i, e, hi, h1, h2⟩
          rcases List.mem_append.1 hi with hi | hi
          · exact .inl ⟨i, e, hi, h1, h2⟩
          · simp only [List.mem_singleton, Prod.mk.injEq] at hi
            obtain ⟨rfl, rfl⟩ := hi
            exact .inr ⟨val_unique (R.keysNodup g) h1 hn, val_unique (R.keysNodup g) h2 hm⟩
        · rintro (⟨i, e, hi, h1, h2⟩ | ⟨rfl, rfl⟩)
          · exact ⟨i, e, List.mem_append_left _ hi, h1, h2⟩
          · exact ⟨(ks, kt, a.raw), h.nE, by simp, hn, hm⟩
      · rw [R'.arrow_iff, R.arrow_iff, Spec.on_ne _ _ e]

theorem lt_nG_of_getNode {h : Heap} (r : Reachable h) {g : GRef} {s : NodeArg} {n : NRef} (hs : getNode h g s = .ok n) : g < h.nG := by
  obtain ⟨A, H⟩ := r.hist
  obtain ⟨k, -, hn⟩ := H.rep.getNode_ok.1 hs
  refine Nat.lt_of_not_le fun hle => ?_
  rw [(H.rep.graphs g hle).1] at hn
  cases hn

/-- The heap after a `connect` is one the program can be in. -/
theorem Reachable.connected {h h' : Heap} (r : Reachable h) {g : GRef} {s t : NodeArg} {n : NRef} {a : EdgeArgs} {p : IfExists}
    {e : ERef} (hs : getNode h g s = .ok n) (hr : connect g s t a p h = (.ok e, h')) : Reachable h' := by
  have := Reachable.step (.connect g s t a p) r (lt_nG_of_getNode r hs)
  simp only [Op.step, bind_apply, hr, pure_apply] at this
  exact this

/-- **C99**: after `connect(n, m)`, for every two nodes `x` and `y` of the graph, `x` is an ancestor of `y` exactly if it was one, or if
it is or was an ancestor of `n` (or is `n` itself) and `y` is `m` or was one of its descendants. The nodes are the same. -/
theorem C99_ancestors {h h' : Heap} (r : Reachable h) {g : GRef} {s t : NodeArg} {n m : NRef} {a : EdgeArgs} {p : IfExists}
    {e : ERef} (hs : getNode h g s = .ok n) (ht : getNode h g t = .ok m) (hr : connect g s t a p h = (.ok e, h'))
    {lim : Nat} {above below : List NRef} (h1 : getAncestors lim h g s = .ok above) (h2 : getDescendants lim h g t = .ok below) :
    graphNodes h' g = graphNodes h g ∧
    (∀ y ∈ graphNodes h g, ∀ before after, getAncestors lim h g (.node y) = .ok before →
      getAncestors lim h' g (.node y) = .ok after →
      ∀ x, x ∈ after ↔ x ∈ before ∨ ((x = n ∨ x ∈ above) ∧ (y = m ∨ y ∈ below))) ∧
    ∀ x ∈ graphNodes h g, ∀ before after, getDescendants lim h g (.node x) = .ok before →
      getDescendants lim h' g (.node x) = .ok after →
      ∀ y, y ∈ after ↔ y ∈ before ∨ (y ≠ x ∧ (x = n ∨ x ∈ above) ∧ (y = m ∨ y ∈ below)) := by
  have r' := r.connected hs hr
  obtain ⟨e1, e2, e3, -⟩ := connect_arrows r hs ht hr
  have hp : ∀ x y, Path h' g x y ↔ Path h g x y ∨ ((x = n ∨ Path h g x n) ∧ (y = m ∨ Path h g m y)) := transGen_insert e2
  have eN : graphNodes h' g = graphNodes h g := by simp only [graphNodes, e1]
  have ha := (C18_ancestors r hs h1).2
  have hb := (C19_descendants r ht h2).2.1
  have hy' : ∀ y, (y = m ∨ Path h g m y) ↔ (y = m ∨ y ∈ below) := by
    intro y
    rw [hb]
    by_cases e : y = m
    · simp [e]
    · simp [e]
  refine ⟨eN, fun y hy before after q1 q2 x => ?_, fun x hx before after q1 q2 y => ?_⟩
  · rw [(C18_ancestors r' (getNode_self r' (eN ▸ hy)) q2).2, (C18_ancestors r (getNode_self r hy) q1).2, ha, hp, hy']
  · rw [(C19_descendants r' (getNode_self r' (eN ▸ hx)) q2).2.1, (C19_descendants r (getNode_self r hx) q1).2.1, ha, hp, hy']
    constructor
    · rintro ⟨h1, h2 | h2⟩
      · exact .inl ⟨h1, h2⟩
      · exact .inr ⟨h1, h2⟩
    · rintro (⟨h1, h2⟩ | ⟨h1, h2⟩)
      · exact ⟨h1, .inl h2⟩
      · exact ⟨h1, .inr h2⟩

/-- **C99**: a node is on a loop after `connect(n, m)` exactly if it was, or if it is between `m` and `n`. -/
theorem C99_loops {h h' : Heap} (r : Reachable h) {g : GRef} {s t : NodeArg} {n m : NRef} {a : EdgeArgs} {p : IfExists}
    {e : ERef} (hs : getNode h g s = .ok n) (ht : getNode h g t = .ok m) (hr : connect g s t a p h = (.ok e, h'))
    {lim : Nat} {above below : List NRef} (h1 : getAncestors lim h g s = .ok above) (h2 : getDescendants lim h g t = .ok below) :
    ∀ x ∈ graphNodes h g, ∀ before after, isNodeInLoop lim h g (.node x) = .ok before → isNodeInLoop lim h' g (.node x) = .ok after →
      (after = true ↔ before = true ∨ ((x = n ∨ x ∈ above) ∧ (x = m ∨ x ∈ below))) := by
  intro x hx before after q1 q2
  have r' := r.connected hs hr
  obtain ⟨e1, e2, e3, -⟩ := connect_arrows r hs ht hr
  have hp : ∀ x y, Path h' g x y ↔ Path h g x y ∨ ((x = n ∨ Path h g x n) ∧ (y = m ∨ Path h g m y)) := transGen_insert e2
  have eN : graphNodes h' g = graphNodes h g := by simp only [graphNodes, e1]
  rw [C22_in_loop r' (getNode_self r' (eN ▸ hx)) q2, C22_in_loop r (getNode_self r hx) q1, hp,
    (C18_ancestors r hs h1).2, (C19_descendants r ht h2).2.1]
  by_cases e : x = m
  · simp [e]
  · simp [e]

/-- **C99**: a graph without loops stays one exactly if the start of the new edge is not its end and not one of the end's descendants. So
asking before connecting is enough to keep a graph free of loops. -/
theorem C99_acyclic {h h' : Heap} (r : Reachable h) {g : GRef} (hown : ∀ n ∈ graphNodes h g, (h.node n).graph = some g)
    {s t : NodeArg} {n m : NRef} {a : EdgeArgs} {p : IfExists}
    {e : ERef} (hs : getNode h g s = .ok n) (ht : getNode h g t = .ok m) (hr : connect g s t a p h = (.ok e, h'))
    {lim : Nat} (hlim : (graphNodes h g).length ≤ lim) (hac : loopNodes lim h g = .ok [])
    {below : List NRef} (h2 : getDescendants lim h g t = .ok below) :
    loopNodes lim h' g = .ok [] ↔ n ≠ m ∧ n ∉ below := by
  have r' := r.connected hs hr
  obtain ⟨e1, e2, e3, -⟩ := connect_arrows r hs ht hr
  have hp : ∀ x y, Path h' g x y ↔ Path h g x y ∨ ((x = n ∨ Path h g x n) ∧ (y = m ∨ Path h g m y)) := transGen_insert e2
  have eN : graphNodes h' g = graphNodes h g := by simp only [graphNodes, e1]
  obtain ⟨l, q1, -, q2⟩ := C22_loop_nodes r hown hlim
  rw [hac] at q1
  cases q1
  obtain ⟨l', q3, -, q4⟩ := C22_loop_nodes r' (fun x hx => by rw [e3]; exact hown x (eN ▸ hx)) (by rw [eN]; exact hlim)
  rw [q3, Except.ok.injEq]
  have free : ∀ x, ¬ Path h g x x := fun x hx => by have := (q2 x).2 hx; cases this
  have hb := (C19_descendants r ht h2).2.1
  constructor
  · rintro rfl
    have : ¬ Path h' g n n := fun hx => by have := (q4 n).2 hx; cases this
    refine ⟨fun e => this ((hp n n).2 (.inr ⟨.inl rfl, .inl e⟩)), fun hc => ?_⟩
    exact this ((hp n n).2 (.inr ⟨.inl rfl, .inr ((hb n).1 hc).2⟩))
  · rintro ⟨hne, hnb⟩
    refine List.eq_nil_iff_forall_not_mem.2 fun x hx => ?_
    have hcon : ¬ Path h g m n := fun hc => hnb ((hb n).2 ⟨hne, hc⟩)
    rcases (hp x x).1 ((q4 x).1 hx) with hc | ⟨h1 | h1, h2 | h2⟩
    · exact free x hc
    · exact hne (h1.symm.trans h2)
    · rw [h1] at h2; exact hcon h2
    · rw [h2] at h1; exact hcon h1
    · exact hcon (h2.trans h1)

/-- `x` leads to `y` by edges that do not touch `v`. -/
abbrev PathAvoiding (h : Heap) (g : GRef) (v : NRef) : NRef → NRef → Prop :=
  Relation.TransGen fun a b => Arrow h g a b ∧ a ≠ v ∧ b ≠ v

/-- `x` leads to `y` by edges other than `e`. -/
abbrev PathWithout (h : Heap) (g : GRef) (e : ERef) : NRef → NRef → Prop :=
  Relation.TransGen fun a b => ∃ f, f ≠ e ∧ LiveEdge h g f ∧ edgeStart h f = .ok a ∧ edgeEnd h f = .ok b

/-- What `remove_node` does to the nodes and the arrows. -/
theorem remove_arrows {h : Heap} (r : Reachable h) {g : GRef} {a : NodeArg} {v : NRef} (hv : getNode h g a = .ok v) :
    ∃ h', removeNode g a h = (.ok (), h') ∧ Reachable h' ∧
      (∀ x, x ∈ graphNodes h' g ↔ x ∈ graphNodes h g ∧ x ≠ v) ∧
      (∀ x y, Arrow h' g x y ↔ Arrow h g x y ∧ x ≠ v ∧ y ≠ v) := by
  obtain ⟨A, H⟩ := r.hist
  have R := H.rep
  obtain ⟨k, -, hn⟩ := R.getNode_ok.1 hv
  obtain ⟨h1, -, hr, R'⟩ := R.removeNode_live hv hn
  have r' := Reachable.step (.removeNode g a) r (lt_nG_of_getNode r hv)
  simp only [Op.step, bind_apply, hr, pure_apply] at r'
  have key : ∀ {x k'}, (k', x) ∈ (A.graph g).nodes → (k' ≠ k ↔ x ≠ v) := by
    intro x k' hx
    have e1 := (R.nodeOk g k' x hx).2.1
    have e2 := (R.nodeOk g k v hn).2.1
    constructor
    · rintro hne rfl; exact hne (e1.symm.trans e2)
    · rintro hne rfl; exact hne (val_unique (R.keysNodup g) hx hn)
  have hg : (A.unregister g k).graph g = (A.graph g).delNode k := by simp [Spec.unregister]
  refine ⟨_, hr, r', fun x => ?_, fun x y => ?_⟩
  · rw [mem_graphNodes R', mem_graphNodes R, hg]
    simp only [SGraph.delNode, List.mem_filter, decide_eq_true_eq]
    constructor
    · rintro ⟨k', h1, h2⟩; exact ⟨⟨k', h1⟩, (key h1).1 h2⟩
    · rintro ⟨⟨k', h1⟩, h2⟩; exact ⟨k', h1, (key h1).2 h2⟩
  · rw [R'.arrow_iff, R.arrow_iff, hg]
    simp only [SGraph.delNode, List.mem_filter, decide_eq_true_eq]
    constructor
    · rintro ⟨i, e, ⟨h1, -⟩, ⟨h3, h4⟩, h5, h6⟩
      exact ⟨⟨i, e, h1, h3, h5⟩, (key h3).1 h4, (key h5).1 h6⟩
    · rintro ⟨⟨i, e, h1, h3, h5⟩, h4, h6⟩
      exact ⟨i, e, ⟨h1, (key h3).2 h4, (key h5).2 h6⟩, ⟨h3, (key h3).2 h4⟩, h5, (key h5).2 h6⟩

/-- **C100**: after `remove_node(v)` a node is an ancestor (a descendant) of another exactly if it was one by edges that do not touch `v`. -/
theorem C100_remove_node {h : Heap} (r : Reachable h) {g : GRef} {a : NodeArg} {v : NRef} (hv : getNode h g a = .ok v) :
    ∃ h', removeNode g a h = (.ok (), h') ∧
      ∀ z ∈ graphNodes h g, z ≠ v → ∀ lim,
        (∀ after, getAncestors lim h' g (.node z) = .ok after → ∀ x, x ∈ after ↔ PathAvoiding h g v x z) ∧
        (∀ after, getDescendants lim h' g (.node z) = .ok after → ∀ y, y ∈ after ↔ y ≠ z ∧ PathAvoiding h g v z y) ∧
        ∀ b, isNodeInLoop lim h' g (.node z) = .ok b → (b = true ↔ PathAvoiding h g v z z) := by
  obtain ⟨h', hr, r', hN, hA⟩ := remove_arrows r hv
  refine ⟨h', hr, fun z hz hzv lim => ?_⟩
  have hp : ∀ x y, Path h' g x y ↔ PathAvoiding h g v x y := by
    have : Arrow h' g = fun a b => Arrow h g a b ∧ a ≠ v ∧ b ≠ v := by
      funext x y; exact propext (hA x y)
    intro x y
    unfold Path PathAvoiding
    rw [this]
  have hz' := getNode_self r' ((hN z).2 ⟨hz, hzv⟩)
  refine ⟨fun after q x => ?_, fun after q y => ?_, fun b q => ?_⟩
  · rw [(C18_ancestors r' hz' q).2, hp]
  · rw [(C19_descendants r' hz' q).2.1, hp]
  · rw [C22_in_loop r' hz' q, hp]

/-- What `disconnect` and `remove_self` do to the nodes and the arrows. -/
theorem disconnect_arrows {h : Heap} (r : Reachable h) {g : GRef} {e : ERef} (he : LiveEdge h g e) :
    (∃ h', disconnect e h = (.ok (), h') ∧ Reachable h' ∧ h'.graph = h.graph ∧
      ∀ x y, Arrow h' g x y ↔ ∃ f, f ≠ e ∧ LiveEdge h g f ∧ edgeStart h f = .ok x ∧ edgeEnd h f = .ok y) ∧
    ∃ h', edgeRemoveSelf e h = (.ok (), h') ∧ Reachable h' ∧ h'.graph = h.graph ∧
      ∀ x y, Arrow h' g x y ↔ ∃ f, f ≠ e ∧ LiveEdge h g f ∧ edgeStart h f = .ok x ∧ edgeEnd h f = .ok y := by
  have main : ∀ {h'}, Reachable h' → EdgeDeleted h h' e →
      ∀ x y, Arrow h' g x y ↔ ∃ f, f ≠ e ∧ LiveEdge h g f ∧ edgeStart h f = .ok x ∧ edgeEnd h f = .ok y := by
    intro h' r' D x y
    have hN : graphNodes h' g = graphNodes h g := by simp only [graphNodes, D.graphs]
    have live : ∀ f, LiveEdge h' g f ↔ LiveEdge h g f ∧ f ≠ e := by
      intro f
      constructor
      · rintro ⟨n, hn, es, h1, h2⟩
        rw [hN] at hn
        obtain ⟨os, o1, o2⟩ := D.out g n hn
        rw [o2] at h1
        cases h1
        have := List.mem_filter.1 h2
        exact ⟨⟨n, hn, os, o1, this.1⟩, by simpa using this.2⟩
      · rintro ⟨⟨n, hn, es, h1, h2⟩, hne⟩
        obtain ⟨os, o1, o2⟩ := D.out g n hn
        rw [o1] at h1
        cases h1
        exact ⟨n, hN ▸ hn, _, o2, List.mem_filter.2 ⟨h2, by simpa using hne⟩⟩
    unfold Arrow
    constructor
    · rintro ⟨f, hf, h1, h2⟩
      obtain ⟨h3, h4⟩ := (live f).1 hf
      refine ⟨f, h4, h3, ?_, ?_⟩
      · rw [← h1]; simp only [edgeStart, D.others f h4]
      · rw [← h2]; simp only [edgeEnd, D.others f h4]
    · rintro ⟨f, h4, h3, h1, h2⟩
      refine ⟨f, (live f).2 ⟨h3, h4⟩, ?_, ?_⟩
      · rw [← h1]; simp only [edgeStart, D.others f h4]
      · rw [← h2]; simp only [edgeEnd, D.others f h4]
  constructor
  · obtain ⟨h', hr, D, -⟩ := C07_disconnect r he
    have r' := Reachable.step (.disconnect e) r trivial
    simp only [Op.step, bind_apply, hr, pure_apply] at r'
    exact ⟨h', hr, r', D.graphs, main r' D⟩
  · obtain ⟨h', hr, D, -⟩ := C07_remove_self r he
    have r' := Reachable.step (.removeSelf e) r trivial
    simp only [Op.step, bind_apply, hr, pure_apply] at r'
    exact ⟨h', hr, r', D.graphs, main r' D⟩

/-- **C100**: after `disconnect(e)` (or `e.remove_self()`) a node is an ancestor (a descendant) of another exactly if it was one by edges
other than `e`. -/
theorem C100_disconnect {h : Heap} (r : Reachable h) {g : GRef} {e : ERef} (he : LiveEdge h g e) :
    ∃ h1 h2, disconnect e h = (.ok (), h1) ∧ edgeRemoveSelf e h = (.ok (), h2) ∧
      ∀ h', h' = h1 ∨ h' = h2 → ∀ z ∈ graphNodes h g, ∀ lim,
        (∀ after, getAncestors lim h' g (.node z) = .ok after → ∀ x, x ∈ after ↔ PathWithout h g e x z) ∧
        (∀ after, getDescendants lim h' g (.node z) = .ok after → ∀ y, y ∈ after ↔ y ≠ z ∧ PathWithout h g e z y) ∧
        ∀ b, isNodeInLoop lim h' g (.node z) = .ok b → (b = true ↔ PathWithout h g e z z) := by
  obtain ⟨⟨h1, e1, r1, g1, a1⟩, h2, e2, r2, g2, a2⟩ := disconnect_arrows r he
  have main : ∀ h', Reachable h' → h'.graph = h.graph →
      (∀ x y, Arrow h' g x y ↔ ∃ f, f ≠ e ∧ LiveEdge h g f ∧ edgeStart h f = .ok x ∧ edgeEnd h f = .ok y) →
      ∀ z ∈ graphNodes h g, ∀ lim,
        (∀ after, getAncestors lim h' g (.node z) = .ok after → ∀ x, x ∈ after ↔ PathWithout h g e x z) ∧
        (∀ after, getDescendants lim h' g (.node z) = .ok after → ∀ y, y ∈ after ↔ y ≠ z ∧ PathWithout h g e z y) ∧
        ∀ b, isNodeInLoop lim h' g (.node z) = .ok b → (b = true ↔ PathWithout h g e z z) := by
    intro h' r' hg hA z hz lim
    have hp : ∀ x y, Path h' g x y ↔ PathWithout h g e x y := by
      have : Arrow h' g = fun a b => ∃ f, f ≠ e ∧ LiveEdge h g f ∧ edgeStart h f = .ok a ∧ edgeEnd h f = .ok b := by
        funext x y; exact propext (hA x y)
      intro x y
      unfold Path PathWithout
      rw [this]
    have hz' := getNode_self r' (show z ∈ graphNodes h' g by simp only [graphNodes, hg]; exact hz)
    refine ⟨fun after q x => ?_, fun after q y => ?_, fun b q => ?_⟩
    · rw [(C18_ancestors r' hz' q).2, hp]
    · rw [(C19_descendants r' hz' q).2.1, hp]
    · rw [C22_in_loop r' hz' q, hp]
  refine ⟨h1, h2, e1, e2, ?_⟩
  rintro h' (rfl | rfl)
  · exact main _ r1 g1 a1
  · exact main _ r2 g2 a2

/-- **C100**: removing one of two parallel edges changes no ancestors, descendants or loops. -/
theorem C100_parallel {h : Heap} (r : Reachable h) {g : GRef} {e f : ERef} (he : LiveEdge h g e) (hf : LiveEdge h g f) (hne : f ≠ e)
    (hs : edgeStart h f = edgeStart h e) (ht : edgeEnd h f = edgeEnd h e) :
    ∃ h', disconnect e h = (.ok (), h') ∧ ∀ z ∈ graphNodes h g, ∀ lim,
      (∀ before after, getAncestors lim h g (.node z) = .ok before → getAncestors lim h' g (.node z) = .ok after →
        ∀ x, x ∈ after ↔ x ∈ before) ∧
      (∀ before after, getDescendants lim h g (.node z) = .ok before → getDescendants lim h' g (.node z) = .ok after →
        ∀ x, x ∈ after ↔ x ∈ before) ∧
      ∀ before after, isNodeInLoop lim h g (.node z) = .ok before → isNodeInLoop lim h' g (.node z) = .ok after → after = before := by
  obtain ⟨h1, h2, e1, e2, main⟩ := C100_disconnect r he
  have hp : ∀ x y, PathWithout h g e x y ↔ Path h g x y := by
    have : (fun a b => ∃ f, f ≠ e ∧ LiveEdge h g f ∧ edgeStart h f = .ok a ∧ edgeEnd h f = .ok b) = Arrow h g := by
      funext a b
      refine propext ⟨?_, ?_⟩
      · rintro ⟨f, -, h1, h2, h3⟩; exact ⟨f, h1, h2, h3⟩
      · rintro ⟨f', h1, h2, h3⟩
        by_cases q : f' = e
        · subst q; exact ⟨f, hne, hf, hs.trans h2, ht.trans h3⟩
        · exact ⟨f', q, h1, h2, h3⟩
    intro x y
    unfold PathWithout Path
    rw [this]
  refine ⟨h1, e1, fun z hz lim => ?_⟩
  obtain ⟨m1, m2, m3⟩ := main h1 (.inl rfl) z hz lim
  have hz' := getNode_self r hz
  refine ⟨fun before after q1 q2 x => ?_, fun before after q1 q2 x => ?_, fun before after q1 q2 => ?_⟩
  · rw [m1 after q2, hp, (C18_ancestors r hz' q1).2]
  · rw [m2 after q2, hp, (C19_descendants r hz' q1).2.1]
  · rw [Bool.eq_iff_iff, m3 after q2, hp, C22_in_loop r hz' q1]

/-- **C100**: deleting a node or an edge adds no ancestors, descendants or loops. -/
theorem C100_shrinks {h h' : Heap} (r : Reachable h) {g : GRef}
    (hr : (∃ a v, getNode h g a = .ok v ∧ removeNode g a h = (.ok (), h')) ∨
      ∃ e, LiveEdge h g e ∧ (disconnect e h = (.ok (), h') ∨ edgeRemoveSelf e h = (.ok (), h')))
    {z : NRef} (hz : z ∈ graphNodes h' g) (lim : Nat) :
    z ∈ graphNodes h g ∧
    (∀ before after, getAncestors lim h g (.node z) = .ok before → getAncestors lim h' g (.node z) = .ok after →
      ∀ x ∈ after, x ∈ before) ∧
    (∀ before after, getDescendants lim h g (.node z) = .ok before → getDescendants lim h' g (.node z) = .ok after →
      ∀ x ∈ after, x ∈ before) ∧
    ∀ before after, isNodeInLoop lim h g (.node z) = .ok before → isNodeInLoop lim h' g (.node z) = .ok after →
      after = true → before = true := by
  have main : Reachable h' → z ∈ graphNodes h g → (∀ x y, Arrow h' g x y → Arrow h g x y) → z ∈ graphNodes h g ∧
      (∀ before after, getAncestors lim h g (.node z) = .ok before → getAncestors lim h' g (.node z) = .ok after →
        ∀ x ∈ after, x ∈ before) ∧
      (∀ before after, getDescendants lim h g (.node z) = .ok before → getDescendants lim h' g (.node z) = .ok after →
        ∀ x ∈ after, x ∈ before) ∧
      ∀ before after, isNodeInLoop lim h g (.node z) = .ok before → isNodeInLoop lim h' g (.node z) = .ok after →
        after = true → before = true := by
    intro r' hzh hA
    have up : ∀ {x y}, Path h' g x y → Path h g x y := fun p => Relation.TransGen.mono hA _ _ p
    have hz1 := getNode_self r hzh
    have hz2 := getNode_self r' hz
    refine ⟨hzh, fun before after q1 q2 x hx => ?_, fun before after q1 q2 x hx => ?_, fun before after q1 q2 hx => ?_⟩
    · exact ((C18_ancestors r hz1 q1).2 x).2 (up (((C18_ancestors r' hz2 q2).2 x).1 hx))
    · have := ((C19_descendants r' hz2 q2).2.1 x).1 hx
      exact ((C19_descendants r hz1 q1).2.1 x).2 ⟨this.1, up this.2⟩
    · exact (C22_in_loop r hz1 q1).2 (up ((C22_in_loop r' hz2 q2).1 hx))
  rcases hr with ⟨a, v, hv, hr⟩ | ⟨e, he, hr⟩
  · obtain ⟨h1, e1, r1, n1, a1⟩ := remove_arrows r hv
    rw [hr] at e1
    cases e1
    exact main r1 ((n1 z).1 hz).1 fun x y hxy => ((a1 x y).1 hxy).1
  · obtain ⟨⟨h1, e1, r1, g1, a1⟩, h2, e2, r2, g2, a2⟩ := disconnect_arrows r he
    rcases hr with hr | hr
    · rw [hr] at e1
      cases e1
      refine main r1 (by simpa only [graphNodes, g1] using hz) fun x y hxy => ?_
      obtain ⟨f, -, q⟩ := (a1 x y).1 hxy
      exact ⟨f, q⟩
    · rw [hr] at e2
      cases e2
      refine main r2 (by simpa only [graphNodes, g2] using hz) fun x y hxy => ?_
      obtain ⟨f, -, q⟩ := (a2 x y).1 hxy
      exact ⟨f, q⟩

end Verif
