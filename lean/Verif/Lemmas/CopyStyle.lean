import Verif.Lemmas.CopyRep
import Verif.Lemmas.Made
import Verif.Lemmas.Stylize
import Verif.Model.CopyWorld
/-!
# What `copy` does with the styles of edges
-/
namespace Verif
open M

/-- While `deepcopy` runs on a heap `h0`: every copied edge has a new style object where its original has one, and the memo
gives different new objects to different old ones. -/
structure Dyed (h0 h : Heap) (m : Memo) : Prop where
  nE : h0.nE ≤ h.nE
  nN : h0.nN ≤ h.nN
  nStyle : h0.nStyle ≤ h.nStyle
  edgeOld : ∀ e, e < h0.nE → h.edge e = h0.edge e
  nodeOld : ∀ n, n < h0.nN → h.node n = h0.node n
  edge : ∀ e e', dget m.edges e = some e' → e' < h.nE ∧
    ((h0.edge e).style = none ∧ (h.edge e').style = none ∨
      ∃ s s', (h0.edge e).style = some s ∧ dget m.styles s = some s' ∧ (h.edge e').style = some s')
  style : ∀ s s', dget m.styles s = some s' → h0.nStyle ≤ s' ∧ s' < h.nStyle ∧ ∃ e, e ∈ dkeys m.edges ∧ (h0.edge e).style = some s
  inj : ∀ s t s', dget m.styles s = some s' → dget m.styles t = some s' → s = t
  keys : (dkeys m.styles).Nodup

theorem Dyed.start (h : Heap) : Dyed h h {} where
  nE := Nat.le_refl _
  nN := Nat.le_refl _
  nStyle := Nat.le_refl _
  edgeOld _ _ := rfl
  nodeOld _ _ := rfl
  edge _ _ h := by simp [dget] at h
  style _ _ h := by simp [dget] at h
  inj _ _ _ h := by simp [dget] at h
  keys := by simp [dkeys]

variable {h0 h : Heap} {m : Memo}

theorem Dyed.plain (D : Dyed h0 h m) {e : ERef} (hs : (h0.edge e).style = none) {o : EdgeObj} (ho : o.style = none) :
    Dyed h0 { h with edge := upd h.edge h.nE o, nE := h.nE + 1 } { m with edges := dset m.edges e h.nE } where
  nE := Nat.le_succ_of_le D.nE
  nN := D.nN
  nStyle := D.nStyle
  edgeOld x hx := (upd_ne _ _ (Nat.ne_of_lt (Nat.lt_of_lt_of_le hx D.nE))).trans (D.edgeOld x hx)
  nodeOld := D.nodeOld
  edge x x' hx := by
    simp only [dget_dset] at hx
    split at hx
    · next hex =>
      subst hex
      cases hx
      exact ⟨Nat.lt_succ_self _, .inl ⟨hs, by simp [ho]⟩⟩
    · obtain ⟨h1, h2⟩ := D.edge x x' hx
      refine ⟨Nat.lt_succ_of_lt h1, ?_⟩
      simp only [upd_ne _ _ (Nat.ne_of_lt h1)]
      exact h2
  style s s' hs := by
    obtain ⟨h1, h2, e', h3, h4⟩ := D.style s s' hs
    exact ⟨h1, h2, e', dkeys_dset.2 (.inr h3), h4⟩
  inj := D.inj
  keys := D.keys

theorem Dyed.again (D : Dyed h0 h m) {e : ERef} {s s' : SRef} (hs : (h0.edge e).style = some s) (hd : dget m.styles s = some s')
    {o : EdgeObj} (ho : o.style = some s') :
    Dyed h0 { h with edge := upd h.edge h.nE o, nE := h.nE + 1 } { m with edges := dset m.edges e h.nE } where
  nE := Nat.le_succ_of_le D.nE
  nN := D.nN
  nStyle := D.nStyle
  edgeOld x hx := (upd_ne _ _ (Nat.ne_of_lt (Nat.lt_of_lt_of_le hx D.nE))).trans (D.edgeOld x hx)
  nodeOld := D.nodeOld
  edge x x' hx := by
    simp only [dget_dset] at hx
    split at hx
    · next hex =>
      subst hex
      cases hx
      exact ⟨Nat.lt_succ_self _, .inr ⟨s, s', hs, hd, by simp [ho]⟩⟩
    · obtain ⟨h1, h2⟩ := D.edge x x' hx
      refine ⟨Nat.lt_succ_of_lt h1, ?_⟩
      simp only [upd_ne _ _ (Nat.ne_of_lt h1)]
      exact h2
  style t t' ht := by
    obtain ⟨h1, h2, e', h3, h4⟩ := D.style t t' ht
    exact ⟨h1, h2, e', dkeys_dset.2 (.inr h3), h4⟩
  inj := D.inj
  keys := D.keys

theorem Dyed.new (D : Dyed h0 h m) {e : ERef} {s : SRef} (hs : (h0.edge e).style = some s) (hd : dget m.styles s = none)
    {o : EdgeObj} (ho : o.style = some h.nStyle) :
    Dyed h0 { h with nStyle := h.nStyle + 1, edge := upd h.edge h.nE o, nE := h.nE + 1 }
      { m with styles := dset m.styles s h.nStyle, edges := dset m.edges e h.nE } where
  nE := Nat.le_succ_of_le D.nE
  nN := D.nN
  nStyle := Nat.le_succ_of_le D.nStyle
  edgeOld x hx := (upd_ne _ _ (Nat.ne_of_lt (Nat.lt_of_lt_of_le hx D.nE))).trans (D.edgeOld x hx)
  nodeOld := D.nodeOld
  edge x x' hx := by
    simp only [dget_dset] at hx
    split at hx
    · next hex =>
      subst hex
      cases hx
      exact ⟨Nat.lt_succ_self _, .inr ⟨s, h.nStyle, hs, by simp [dget_dset], by simp [ho]⟩⟩
    · obtain ⟨h1, h2⟩ := D.edge x x' hx
      refine ⟨Nat.lt_succ_of_lt h1, ?_⟩
      simp only [upd_ne _ _ (Nat.ne_of_lt h1)]
      rcases h2 with h2 | ⟨t, t', h2, h3, h4⟩
      · exact .inl h2
      · refine .inr ⟨t, t', h2, ?_, h4⟩
        rw [dget_dset, if_neg]
        · exact h3
        · rintro rfl; rw [hd] at h3; cases h3
  style t t' ht := by
    simp only [dget_dset] at ht
    split at ht
    · next hex =>
      subst hex
      cases ht
      exact ⟨D.nStyle, Nat.lt_succ_self _, e, dkeys_dset.2 (.inl rfl), hs⟩
    · obtain ⟨h1, h2, e', h3, h4⟩ := D.style t t' ht
      exact ⟨h1, Nat.lt_succ_of_lt h2, e', dkeys_dset.2 (.inr h3), h4⟩
  inj t u t' ht hu := by
    simp only [dget_dset] at ht hu
    split at ht <;> split at hu
    · next h1 h2 => rw [← h1, ← h2]
    · cases ht
      exact absurd (D.style u _ hu).2.1 (Nat.lt_irrefl _)
    · cases hu
      exact absurd (D.style t _ ht).2.1 (Nat.lt_irrefl _)
    · exact D.inj t u t' ht hu
  keys := nodup_dset D.keys

theorem Dyed.copyEdge (D : Dyed h0 h m) {e : ERef} (he : e < h0.nE) :
    ∃ e' m' h', Verif.copyEdge m e h = (.ok (e', m'), h') ∧ Dyed h0 h' m' := by
  unfold Verif.copyEdge
  cases hd : dget m.edges e with
  | some e' => exact ⟨e', m, h, rfl, D⟩
  | none =>
    have ho := D.edgeOld e he
    simp only [bind_apply, look_apply]
    cases hs : (h.edge e).style with
    | none =>
      refine ⟨_, _, _, by simp only [Verif.copyStyle, pure_apply, newEdge]; rfl, ?_⟩
      exact D.plain (by rw [← ho]; exact hs) rfl
    | some s =>
      cases hm : dget m.styles s with
      | some s' =>
        refine ⟨_, _, _, by simp only [Verif.copyStyle, hm, pure_apply, newEdge]; rfl, ?_⟩
        exact D.again (by rw [← ho]; exact hs) hm rfl
      | none =>
        refine ⟨_, _, _, by simp only [Verif.copyStyle, hm, bind_apply, newStyle, pure_apply, newEdge]; rfl, ?_⟩
        exact D.new (by rw [← ho]; exact hs) hm rfl

theorem Dyed.copyEdgeDict (d : Dict EdgeId ERef) (hd : ∀ p ∈ d, p.2 < h0.nE) : ∀ {h : Heap} {m : Memo}, Dyed h0 h m →
    ∃ d' m' h', Verif.copyEdgeDict m d h = (.ok (d', m'), h') ∧ Dyed h0 h' m' := by
  induction d with
  | nil => intro h m D; exact ⟨[], m, h, rfl, D⟩
  | cons p d ih =>
    intro h m D
    obtain ⟨e', m1, h1, r1, D1⟩ := D.copyEdge (hd p (by simp))
    obtain ⟨d', m2, h2, r2, D2⟩ := ih (fun q hq => hd q (by simp [hq])) D1
    exact ⟨_, _, _, by simp only [Verif.copyEdgeDict, bind_apply, r1, r2, pure_apply]; rfl, D2⟩

theorem Dyed.copyNode (D : Dyed h0 h m) {n : NRef} (hn : EdgesBelow h0 n) :
    ∃ n' m' h', Verif.copyNode m n h = (.ok (n', m'), h') ∧ Dyed h0 h' m' := by
  unfold Verif.copyNode
  cases hd : dget m.nodes n with
  | some n' => exact ⟨n', m, h, rfl, D⟩
  | none =>
    have ho := D.nodeOld n hn.1
    obtain ⟨d1, m1, h1, r1, D1⟩ := Dyed.copyEdgeDict (h.node n).outE (by rw [ho]; exact hn.2.1) D
    obtain ⟨d2, m2, h2, r2, D2⟩ := Dyed.copyEdgeDict (h.node n).inE (by rw [ho]; exact hn.2.2) D1
    refine ⟨_, _, _, by simp only [bind_apply, look_apply, r1, r2, newNode, pure_apply]; rfl, ?_⟩
    exact { D2 with
      nN := Nat.le_succ_of_le D2.nN
      nodeOld := fun x hx => (upd_ne _ _ (Nat.ne_of_lt (Nat.lt_of_lt_of_le hx D2.nN))).trans (D2.nodeOld x hx) }

theorem Dyed.copyNodeDict (d : Dict Key NRef) (hd : ∀ p ∈ d, EdgesBelow h0 p.2) : ∀ {h : Heap} {m : Memo}, Dyed h0 h m →
    ∃ d' m' h', Verif.copyNodeDict m d h = (.ok (d', m'), h') ∧ Dyed h0 h' m' := by
  induction d with
  | nil => intro h m D; exact ⟨[], m, h, rfl, D⟩
  | cons p d ih =>
    intro h m D
    obtain ⟨e', m1, h1, r1, D1⟩ := D.copyNode (hd p (by simp))
    obtain ⟨d', m2, h2, r2, D2⟩ := ih (fun q hq => hd q (by simp [hq])) D1
    exact ⟨_, _, _, by simp only [Verif.copyNodeDict, bind_apply, r1, r2, pure_apply]; rfl, D2⟩

/-! ## The second half of `copy` leaves styles alone -/

/-- The call always succeeds and no edge gets another style. -/
def Dyeless (x : M Unit) : Prop := ∀ h, ∃ h', x h = (.ok (), h') ∧ h'.nStyle = h.nStyle ∧ ∀ e, (h'.edge e).style = (h.edge e).style

namespace Dyeless

theorem pure : Dyeless (Pure.pure ()) := fun h => ⟨h, rfl, rfl, fun _ => rfl⟩

theorem bind {x : M Unit} {f : Unit → M Unit} (hx : Dyeless x) (hf : Dyeless (f ())) : Dyeless (x >>= f) := by
  intro h
  obtain ⟨h1, r1, a1, b1⟩ := hx h
  obtain ⟨h2, r2, a2, b2⟩ := hf h1
  exact ⟨h2, by rw [bind_apply, r1]; exact r2, a2.trans a1, fun e => (b2 e).trans (b1 e)⟩

theorem look {α : Type} {q : Heap → α} {f : α → M Unit} (hf : ∀ a, Dyeless (f a)) : Dyeless (M.look q >>= f) := by
  intro h
  obtain ⟨h2, r2, a2, b2⟩ := hf (q h) h
  exact ⟨h2, by rw [bind_apply, look_apply]; exact r2, a2, b2⟩

theorem modNode (n : NRef) (f : NodeObj → NodeObj) : Dyeless (M.modNode n f) := fun _ => ⟨_, rfl, rfl, fun _ => rfl⟩

theorem modGraph (n : GRef) (f : GraphObj → GraphObj) : Dyeless (M.modGraph n f) := fun _ => ⟨_, rfl, rfl, fun _ => rfl⟩

theorem modEdge (n : ERef) (f : EdgeObj → EdgeObj) (hf : ∀ o, (f o).style = o.style) : Dyeless (M.modEdge n f) := by
  refine fun h => ⟨_, rfl, rfl, fun e => ?_⟩
  by_cases he : e = n
  · subst he; simp [hf]
  · simp only [upd_ne _ _ he]

theorem onlyIf {c : Prop} [Decidable c] {x : M Unit} (hx : Dyeless x) : Dyeless (Verif.onlyIf c x) := by
  unfold Verif.onlyIf
  split
  · exact hx
  · exact .pure

theorem setStarts (n : NRef) (g : Option GRef) (es : List ERef) : Dyeless (Verif.setStarts n g es) := by
  induction es with
  | nil => exact .pure
  | cons e es ih => exact bind (modEdge _ _ (by intro _; rfl)) ih

theorem setEnds (n : NRef) (g : Option GRef) (es : List ERef) : Dyeless (Verif.setEnds n g es) := by
  induction es with
  | nil => exact .pure
  | cons e es ih => exact bind (modEdge _ _ (by intro _; rfl)) ih

theorem setGraphs (g : GRef) (ns : List NRef) : Dyeless (Verif.setGraphs g ns) := by
  induction ns with
  | nil => exact .pure
  | cons e es ih => exact (modNode _ _).bind ih

theorem updateEdges (n : NRef) : Dyeless (Verif.updateEdges n) :=
  look fun _ => (onlyIf (setStarts _ _ _)).bind ((modNode _ _).bind ((onlyIf (setEnds _ _ _)).bind (modNode _ _)))

theorem updateNodesLoop (g : GRef) (ns : List NRef) : Dyeless (Verif.updateNodesLoop g ns) := by
  induction ns with
  | nil => exact .pure
  | cons e es ih => exact (modNode _ _).bind ((updateEdges e).bind ih)

theorem updateNodes (g : GRef) : Dyeless (Verif.updateNodes g) := look fun _ => (onlyIf (updateNodesLoop _ _)).bind (modGraph _ _)

end Dyeless

/-- The styles of the edges after a successful copy. -/
structure CopyDye (h h' : Heap) (m : Memo) : Prop where
  nStyle : h.nStyle ≤ h'.nStyle
  edge : ∀ e e', dget m.edges e = some e' → ((h.edge e).style = none ∧ (h'.edge e').style = none ∨
      ∃ s s', (h.edge e).style = some s ∧ dget m.styles s = some s' ∧ (h'.edge e').style = some s')
  style : ∀ s s', dget m.styles s = some s' → h.nStyle ≤ s' ∧ s' < h'.nStyle ∧ ∃ e, e ∈ dkeys m.edges ∧ (h.edge e).style = some s
  inj : ∀ s t s', dget m.styles s = some s' → dget m.styles t = some s' → s = t
  keys : (dkeys m.styles).Nodup

theorem Rep.edgesBelow {h : Heap} {A : Spec} (R : Rep h A) (g : GRef) : ∀ p ∈ (h.graph g).nodes, EdgesBelow h p.2 := by
  intro p hp
  rw [R.nodes] at hp
  refine ⟨(R.nodeOk g p.1 p.2 hp).1, ?_, ?_⟩
  · intro q hq
    rw [R.outE g p.1 p.2 hp] at hq
    exact (R.edgeOk g _ _ _ _ (List.mem_filter.1 hq).1).1
  · intro q hq
    rw [R.inE g p.1 p.2 hp] at hq
    exact (R.edgeOk g _ _ _ _ (List.mem_filter.1 hq).1).1

theorem graphCopy_dye {h h' : Heap} {A : Spec} (R : Rep h A) {g g' : GRef} {m : Memo}
    (hc : graphCopy g h = (.ok (g', m), h')) : CopyDye h h' m := by
  obtain ⟨d, m1, h1, r1, D⟩ := Dyed.copyNodeDict (h.graph g).nodes (R.edgesBelow g) (Dyed.start h)
  simp only [graphCopy, bind_apply, look_apply] at hc
  split at hc
  · simp at hc
  · simp only [bind_apply, r1, newGraph] at hc
    obtain ⟨h3, r3, a3, b3⟩ := Dyeless.setGraphs h1.nG (dvals d) { h1 with graph := upd h1.graph h1.nG { nodes := d, strict := (h.graph g).strict, ordering := (h.graph g).ordering, nodesHaveGraph := false, counter := (h.graph g).counter, overwrite := none }, nG := h1.nG + 1 }
    obtain ⟨h4, r4, a4, b4⟩ := Dyeless.modGraph h1.nG (fun o => { o with nodesHaveGraph := false }) h3
    obtain ⟨h5, r5, a5, b5⟩ := Dyeless.updateNodes h1.nG h4
    rw [r3] at hc
    simp only [r4] at hc
    rw [r5] at hc
    simp only [pure_apply, Prod.mk.injEq, Except.ok.injEq] at hc
    obtain ⟨⟨-, rfl⟩, rfl⟩ := hc
    have hS : h5.nStyle = h1.nStyle := a5.trans (a4.trans a3)
    have hE : ∀ e, (h5.edge e).style = (h1.edge e).style := fun e => (b5 e).trans ((b4 e).trans (b3 e))
    exact ⟨by rw [hS]; exact D.nStyle, fun e e' he => by rw [hE]; exact (D.edge e e' he).2, fun s s' hs => by rw [hS]; exact D.style s s' hs, D.inj, D.keys⟩

/-! ## What copies look like -/

theorem CopyDye.dye_copy {C : Type} {h h' : Heap} {m : Memo} (D : CopyDye h h' m) (es : SRef → EdgeStyle C) {s s' : SRef}
    (hs : dget m.styles s = some s') : m.dye es s' = { es s with textAuto := none } := by
  unfold Memo.dye
  cases hf : m.styles.find? (fun p => decide (p.2 = s')) with
  | none =>
    have := List.find?_eq_none.1 hf (s, s') (mem_of_dget hs)
    simp at this
  | some p =>
    have h1 := List.find?_some hf
    have h2 := List.mem_of_find?_eq_some hf
    simp only [decide_eq_true_eq] at h1
    obtain ⟨a, b⟩ := p
    simp only at h1
    subst h1
    rw [D.inj a s b (dget_of_mem D.keys h2) hs]

theorem CopyDye.dye_old {C : Type} {h h' : Heap} {m : Memo} (D : CopyDye h h' m) (es : SRef → EdgeStyle C) {s : SRef}
    (hs : s < h.nStyle) : m.dye es s = es s := by
  unfold Memo.dye
  cases hf : m.styles.find? (fun p => decide (p.2 = s)) with
  | none => rfl
  | some p =>
    have h1 := List.find?_some hf
    have h2 := List.mem_of_find?_eq_some hf
    simp only [decide_eq_true_eq] at h1
    obtain ⟨a, b⟩ := p
    simp only at h1
    subst h1
    exact absurd hs (Nat.not_lt.2 (D.style a b (dget_of_mem D.keys h2)).1)

end Verif
