import Verif.Lemmas.Later
import Verif.Lemmas.Quiet
/-!
# What stays the same about an object, restyling included
-/
namespace Verif

/-- From `h` to `h'` objects keep what they are; edges may lose their ends, id and graph, nodes their graph.
Frozen values stay, but for the nodes with `U` and the edges with `V`, and styles that must not be overwritten. -/
structure Lasting (U : NRef → Prop) (V : ERef → Prop) (h h' : Heap) : Prop where
  nN : h.nN ≤ h'.nN
  nE : h.nE ≤ h'.nE
  nG : h.nG ≤ h'.nG
  opts : ∀ g, g < h.nG → (h.graph g).counter ≤ (h'.graph g).counter ∧ (h'.graph g).overwrite = (h.graph g).overwrite
  id : ∀ n, n < h.nN → (h'.node n).id = (h.node n).id ∧ (h'.node n).index = (h.node n).index ∧ (h'.node n).tooltip = (h.node n).tooltip
  graph : ∀ n, n < h.nN → (h'.node n).graph = (h.node n).graph ∨ (h'.node n).graph = none
  raw : ∀ e, e < h.nE → (h'.edge e).raw = (h.edge e).raw ∨ (h'.edge e).raw = .cleared
  tooltip : ∀ e, e < h.nE → (h'.edge e).tooltip = (h.edge e).tooltip
  home : ∀ e, e < h.nE → (h'.edge e).graph = (h.edge e).graph ∨ (h'.edge e).graph = none
  start : ∀ e, e < h.nE → (h'.edge e).start = (h.edge e).start ∨ (h'.edge e).start = none
  stop : ∀ e, e < h.nE → (h'.edge e).stop = (h.edge e).stop ∨ (h'.edge e).stop = none
  nfrozen : ∀ n, n < h.nN → ¬ U n → (h.node n).frozen = true → (h'.node n).frozen = true ∧ (h'.node n).value = (h.node n).value
  efrozen : ∀ e, e < h.nE → ¬ V e → (h.edge e).frozen = true → (h'.edge e).frozen = true ∧ (h'.edge e).value = (h.edge e).value
  nstyle : ∀ n, n < h.nN → Locked h (h.node n).graph (h.node n).style → (h'.node n).style = (h.node n).style
  estyle : ∀ e, e < h.nE → Locked h (h.edge e).graph (h.edge e).style → (h'.edge e).style = (h.edge e).style

variable {U : NRef → Prop} {V : ERef → Prop}

theorem same_or {α : Type} {a b c n : α} (h1 : b = a ∨ b = n) (h2 : c = b ∨ c = n) : c = a ∨ c = n := by
  rcases h2 with h2 | h2
  · rw [h2]; exact h1
  · exact .inr h2

theorem Lasting.refl (h : Heap) : Lasting U V h h :=
  ⟨Nat.le_refl _, Nat.le_refl _, Nat.le_refl _, fun _ _ => ⟨Nat.le_refl _, rfl⟩, fun _ _ => ⟨rfl, rfl, rfl⟩, fun _ _ => .inl rfl, fun _ _ => .inl rfl, fun _ _ => rfl, fun _ _ => .inl rfl,
    fun _ _ => .inl rfl, fun _ _ => .inl rfl, fun _ _ _ h => ⟨h, rfl⟩, fun _ _ _ h => ⟨h, rfl⟩, fun _ _ _ => rfl, fun _ _ _ => rfl⟩

theorem Lasting.locked {h h' : Heap} (L : Lasting U V h h') {gr gr' : Option GRef} {st : Option SRef}
    (hg : gr' = gr ∨ gr' = none) (hl : Locked h gr st) : Locked h' gr' st := by
  refine ⟨hl.1, fun g hgr => ?_⟩
  rcases hg with hg | hg
  · have := hl.2 g (hg ▸ hgr)
    exact ⟨Nat.lt_of_lt_of_le this.1 L.nG, by rw [(L.opts g this.1).2]; exact this.2⟩
  · rw [hg] at hgr; cases hgr

theorem Lasting.trans {h h' h'' : Heap} (a : Lasting U V h h') (b : Lasting U V h' h'') : Lasting U V h h'' := by
  have n : ∀ {i}, i < h.nN → i < h'.nN := fun hi => Nat.lt_of_lt_of_le hi a.nN
  have e : ∀ {i}, i < h.nE → i < h'.nE := fun hi => Nat.lt_of_lt_of_le hi a.nE
  have gs : ∀ g, g < h.nG → (h.graph g).counter ≤ (h''.graph g).counter ∧ (h''.graph g).overwrite = (h.graph g).overwrite := fun g hg =>
    have hg' := Nat.lt_of_lt_of_le hg a.nG
    ⟨Nat.le_trans (a.opts g hg).1 (b.opts g hg').1, (b.opts g hg').2.trans (a.opts g hg).2⟩
  refine ⟨Nat.le_trans a.nN b.nN, Nat.le_trans a.nE b.nE, Nat.le_trans a.nG b.nG, gs, fun i hi => ?_, fun i hi => same_or (a.graph i hi) (b.graph i (n hi)),
    fun i hi => same_or (a.raw i hi) (b.raw i (e hi)), fun i hi => (b.tooltip i (e hi)).trans (a.tooltip i hi),
    fun i hi => same_or (a.home i hi) (b.home i (e hi)), fun i hi => same_or (a.start i hi) (b.start i (e hi)),
    fun i hi => same_or (a.stop i hi) (b.stop i (e hi)), fun i hi hu hf => ?_, fun i hi hu hf => ?_,
    fun i hi hl => (b.nstyle i (n hi) (by rw [a.nstyle i hi hl]; exact a.locked (a.graph i hi) hl)).trans (a.nstyle i hi hl),
    fun i hi hl => (b.estyle i (e hi) (by rw [a.estyle i hi hl]; exact a.locked (a.home i hi) hl)).trans (a.estyle i hi hl)⟩
  rotate_left
  · obtain ⟨h1, h2⟩ := a.nfrozen i hi hu hf
    obtain ⟨k1, k2⟩ := b.nfrozen i (n hi) hu h1
    exact ⟨k1, k2.trans h2⟩
  · obtain ⟨h1, h2⟩ := a.efrozen i hi hu hf
    obtain ⟨k1, k2⟩ := b.efrozen i (e hi) hu h1
    exact ⟨k1, k2.trans h2⟩
  obtain ⟨h1, h2, h3⟩ := a.id i hi
  obtain ⟨k1, k2, k3⟩ := b.id i (n hi)
  exact ⟨k1.trans h1, k2.trans h2, k3.trans h3⟩

theorem Later.same {U' : NRef → Prop} {V' : ERef → Prop} {W : GRef → Prop} {h h' : Heap} (L : Later U' V' W h h')
    (hU : ∀ n, U' n → U n) (hV : ∀ e, V' e → V e) : Lasting U V h h' :=
  ⟨L.nN, L.nE, L.nG, fun g hg => ⟨(L.graph g hg).1, (L.graph g hg).2.1⟩, fun n hn => ⟨(L.node n hn).id, (L.node n hn).index, (L.node n hn).tooltip⟩, fun n hn => (L.node n hn).graph,
    fun e he => (L.edge e he).raw, fun e he => (L.edge e he).tooltip, fun e he => (L.edge e he).graph,
    fun e he => (L.edge e he).ends.1, fun e he => (L.edge e he).ends.2, fun n hn hu => (L.node n hn).frozen fun h => hu (hU n h),
    fun e he hu => (L.edge e he).frozen fun h => hu (hV e h), fun n hn => (L.node n hn).style, fun e he => (L.edge e he).style⟩

theorem Locked.not_free {h : Heap} {gr : Option GRef} {st : Option SRef} (hl : Locked h gr st) : ¬ Free h st gr := by
  rintro (c | ⟨g, c1, c2⟩)
  · exact hl.1 c
  · exact (hl.2 g c1).2 c2

theorem Quiet.same {C : Type} {w w' : World C} (Q : Quiet w w') : Lasting U V w.heap w'.heap := by
  have S := Q.shape
  have kn := fun n (hl : Locked w.heap (w.heap.node n).graph (w.heap.node n).style) => Q.keptN n hl.not_free
  have ke := fun n (hl : Locked w.heap (w.heap.edge n).graph (w.heap.edge n).style) => Q.keptE n hl.not_free
  revert S kn ke
  generalize w.heap = h
  generalize w'.heap = h'
  intro S kn ke
  have n : ∀ n, (strip h').node n = (strip h).node n := fun n => (congrFun (congrArg Heap.node S) n).symm
  have e : ∀ e, (strip h').edge e = (strip h).edge e := fun e => (congrFun (congrArg Heap.edge S) e).symm
  refine ⟨Nat.le_of_eq (congrArg Heap.nN S : (strip h).nN = _), Nat.le_of_eq (congrArg Heap.nE S : (strip h).nE = _),
    Nat.le_of_eq (congrArg Heap.nG S : (strip h).nG = _), fun g _ => ?_,
    fun i _ => ⟨?_, ?_, ?_⟩, fun i _ => .inl ?_, fun i _ => .inl ?_, fun i _ => ?_, fun i _ => .inl ?_, fun i _ => .inl ?_, fun i _ => .inl ?_,
    fun i _ _ hf => ?_, fun i _ _ hf => ?_, fun i _ => kn i, fun i _ => ke i⟩
  · have hg : (strip h').graph g = (strip h).graph g := (congrFun (congrArg Heap.graph S) g).symm
    have hg : h'.graph g = h.graph g := hg
    rw [hg]
    exact ⟨Nat.le_refl _, rfl⟩
  · have := congrArg NodeObj.id (n i); exact this
  · have := congrArg NodeObj.index (n i); exact this
  · have := congrArg NodeObj.tooltip (n i); exact this
  · have := congrArg NodeObj.graph (n i); exact this
  · have := congrArg EdgeObj.raw (e i); exact this
  · have := congrArg EdgeObj.tooltip (e i); exact this
  · have := congrArg EdgeObj.graph (e i); exact this
  · have := congrArg EdgeObj.start (e i); exact this
  · have := congrArg EdgeObj.stop (e i); exact this
  · have h1 := congrArg NodeObj.frozen (n i)
    have h2 := congrArg NodeObj.value (n i)
    exact ⟨h1.trans hf, h2⟩
  · have h1 := congrArg EdgeObj.frozen (e i)
    have h2 := congrArg EdgeObj.value (e i)
    exact ⟨h1.trans hf, h2⟩

end Verif
