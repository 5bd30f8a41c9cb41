import Verif.Props.Roots
/-!
# C27: siblings and co-parents
-/
namespace Verif

theorem nodeNe_eq {h : Heap} (r : Reachable h) {g : GRef} {x y : NRef} (hx : x ∈ graphNodes h g) (hy : y ∈ graphNodes h g) :
    nodeNe h x y = decide (x ≠ y) := by
  have := C09_eq_identity r hx hy
  have e : nodeNe h x y = !nodeEq h x y := by
    unfold nodeNe nodeEq
    simp only [ne_eq, Prod.mk.injEq]
    simp
  rw [e]
  by_cases hxy : x = y
  · simp [hxy, nodeEq]
  · have hf : nodeEq h x y = false := by rw [Bool.eq_false_iff]; exact fun hc => hxy (this.1 hc)
    simp [hf, hxy]

theorem node_id_inj {h : Heap} (r : Reachable h) {g : GRef} {x y : NRef} (hx : x ∈ graphNodes h g) (hy : y ∈ graphNodes h g)
    (he : (h.node x).id = (h.node y).id) : x = y := by
  have hxx := getNode_self r hx
  have hyy := getNode_self r hy
  unfold getNode at hxx hyy
  simp only [he] at hxx hyy
  rw [hxx] at hyy
  exact Except.ok.inj hyy

section
variable {h : Heap} {g : GRef} {x : NRef}

/-- The inner loops of both versions. -/
theorem collect_inner (r : Reachable h) (hx : x ∈ graphNodes h g) {cs acc : List NRef} {d : Dict Key NRef}
    (hcs : ∀ c ∈ cs, c ∈ graphNodes h g) (ha : ∀ c ∈ acc, c ∈ graphNodes h g) (hn : acc.Nodup)
    (hd : d = acc.map (fun c => ((h.node c).id, c))) :
    ∃ acc', cs.foldl (fun acc c => if !memNode h c acc && nodeNe h c x then acc ++ [c] else acc) acc = acc' ∧
      cs.foldl (fun acc c => if (dget acc (h.node c).id).isNone && nodeNe h c x then dset acc (h.node c).id c else acc) d =
        acc'.map (fun c => ((h.node c).id, c)) ∧
      acc'.Nodup ∧ (∀ c ∈ acc', c ∈ graphNodes h g) ∧ ∀ y, y ∈ acc' ↔ y ∈ acc ∨ (y ≠ x ∧ y ∈ cs) := by
  induction cs generalizing acc d with
  | nil => exact ⟨acc, rfl, by simpa using hd, hn, ha, by simp⟩
  | cons c cs ih =>
    have hc := hcs c (by simp)
    have hkey : (dget d (h.node c).id).isNone = !inList c acc := by
      rw [hd, Bool.eq_iff_iff, Option.isNone_iff_eq_none, dget_none]
      simp only [List.map_map, Bool.not_eq_true', decide_eq_false_iff_not]
      refine not_congr ?_
      simp only [List.mem_map, Function.comp]
      constructor
      · rintro ⟨b, hb, e⟩; rw [← node_id_inj r (ha b hb) hc e]; exact hb
      · intro hb; exact ⟨c, hb, rfl⟩
    simp only [List.foldl_cons, hkey, memNode_eq r hc ha, nodeNe_eq r hc hx]
    by_cases hcond : c ∉ acc ∧ c ≠ x
    · have h1 : (!inList c acc && decide (c ≠ x)) = true := by simpa using hcond
      simp only [h1, if_true]
      have hkn : (h.node c).id ∉ dkeys d := by
        have : (dget d (h.node c).id).isNone = true := by rw [hkey]; simp [hcond.1]
        rwa [Option.isNone_iff_eq_none, dget_none] at this
      have hd' : dset d (h.node c).id c = (acc ++ [c]).map (fun c => ((h.node c).id, c)) := by
        rw [dset_of_not_mem hkn, hd]; simp
      obtain ⟨acc', e1, e2, e3, e4, e5⟩ := ih (acc := acc ++ [c]) (d := dset d (h.node c).id c)
        (fun y hy => hcs y (by simp [hy]))
        (by intro y hy; rcases List.mem_append.1 hy with hy | hy
            · exact ha y hy
            · rw [List.mem_singleton.1 hy]; exact hc)
        (by rw [List.nodup_append]; exact ⟨hn, by simp, by rintro a h1 b h2 rfl; rw [List.mem_singleton.1 h2] at h1; exact hcond.1 h1⟩) hd'
      refine ⟨acc', e1, e2, e3, e4, fun y => ?_⟩
      rw [e5]
      have := hcond.2
      simp only [List.mem_append, List.mem_cons]
      grind
    · have h1 : (!inList c acc && decide (c ≠ x)) = false := by simpa using hcond
      simp only [h1, Bool.false_eq_true, if_false]
      obtain ⟨acc', e1, e2, e3, e4, e5⟩ := ih (acc := acc) (d := d) (fun y hy => hcs y (by simp [hy])) ha hn hd
      refine ⟨acc', e1, e2, e3, e4, fun y => ?_⟩
      rw [e5]
      simp only [List.mem_cons]
      grind

/-- The outer loops of both versions. -/
theorem collect_outer (r : Reachable h) (hx : x ∈ graphNodes h g) {down down' : NRef → Except PyErr (List NRef)}
    {f : NRef → List NRef} {ups acc : List NRef} {d : Dict Key NRef}
    (hf : ∀ p ∈ ups, down p = .ok (f p) ∧ down' p = .ok (f p) ∧ ∀ c ∈ f p, c ∈ graphNodes h g)
    (ha : ∀ c ∈ acc, c ∈ graphNodes h g) (hn : acc.Nodup) (hd : d = acc.map (fun c => ((h.node c).id, c))) :
    ∃ acc', collectOthers h x down ups acc = .ok acc' ∧
      collectById h x down' ups d = .ok (acc'.map (fun c => ((h.node c).id, c))) ∧
      acc'.Nodup ∧ ∀ y, y ∈ acc' ↔ y ∈ acc ∨ (y ≠ x ∧ ∃ p ∈ ups, y ∈ f p) := by
  induction ups generalizing acc d with
  | nil => exact ⟨acc, rfl, by rw [← hd]; rfl, hn, by simp⟩
  | cons p ups ih =>
    obtain ⟨d1, d2, d3⟩ := hf p (by simp)
    obtain ⟨acc1, e1, e2, e3, e4, e5⟩ := collect_inner r hx d3 ha hn hd
    obtain ⟨acc', f1, f2, f3, f4⟩ := ih (acc := acc1) (fun q hq => hf q (by simp [hq])) e4 e3 rfl
    refine ⟨acc', ?_, ?_, f3, fun y => ?_⟩
    · unfold collectOthers
      simp only [d1, bind, Except.bind, e1]
      exact f1
    · unfold collectById
      simp only [d2, bind, Except.bind, e2]
      exact f2
    · rw [f4, e5]
      simp only [List.mem_cons, exists_eq_or_imp]
      grind

end

/-- **C27.** `get_siblings(x)` lists, without repetition, exactly the other nodes that share a parent with `x`;
`get_spouses(x)` exactly the other nodes that share a child with `x`. -/
theorem C27_exact {h : Heap} (r : Reachable h) {g : GRef} {a : NodeArg} {x : NRef} (ha : getNode h g a = .ok x) :
    (∃ l, getSiblings h g a = .ok l ∧ l.Nodup ∧ ∀ y, y ∈ l ↔ y ≠ x ∧ ∃ p, Arrow h g p x ∧ Arrow h g p y) ∧
    (∃ l, getSpouses h g a = .ok l ∧ l.Nodup ∧ ∀ y, y ∈ l ↔ y ≠ x ∧ ∃ c, Arrow h g x c ∧ Arrow h g y c) := by
  have hx := getNode_mem r ha
  constructor
  · obtain ⟨l, h1, -, h3, h4⟩ := collect_outer r hx (down := fun p => getChildren h g (.node p))
      (down' := fun p => getChildren h g (.node p)) (f := kids h) (ups := pars h x) (acc := []) (d := [])
      (fun p hp => ⟨getChildren_eq r (getNode_self r (pars_closed r x hx p hp)),
        getChildren_eq r (getNode_self r (pars_closed r x hx p hp)), kids_closed r p (pars_closed r x hx p hp)⟩)
      (by simp) (by simp) (by simp)
    refine ⟨l, ?_, h3, fun y => ?_⟩
    · simp only [getSiblings, ha, getParents_eq r (getNode_self r hx), bind, Except.bind]; exact h1
    · rw [h4]
      simp only [List.not_mem_nil, false_or]
      refine and_congr_right fun _ => exists_congr fun p => ?_
      rw [mem_pars r hx]
      exact and_congr_right fun hp => mem_kids r (arrow_mem r hp).1
  · obtain ⟨l, h1, -, h3, h4⟩ := collect_outer r hx (down := fun c => getParents h g (.node c))
      (down' := fun c => getParents h g (.node c)) (f := pars h) (ups := kids h x) (acc := []) (d := [])
      (fun p hp => ⟨getParents_eq r (getNode_self r (kids_closed r x hx p hp)),
        getParents_eq r (getNode_self r (kids_closed r x hx p hp)), pars_closed r p (kids_closed r x hx p hp)⟩)
      (by simp) (by simp) (by simp)
    refine ⟨l, ?_, h3, fun y => ?_⟩
    · simp only [getSpouses, ha, getChildren_eq r (getNode_self r hx), bind, Except.bind]; exact h1
    · rw [h4]
      simp only [List.not_mem_nil, false_or]
      refine and_congr_right fun _ => exists_congr fun p => ?_
      rw [mem_kids r hx]
      exact and_congr_right fun hp => mem_pars r (arrow_mem r hp).2

/-- **C27.** Both relations are symmetric. -/
theorem C27_symmetric {h : Heap} (r : Reachable h) {g : GRef} {p q : NodeArg} {x y : NRef} (hp : getNode h g p = .ok x)
    (hq : getNode h g q = .ok y) {sx sy cx cy : List NRef} (h1 : getSiblings h g p = .ok sx) (h2 : getSiblings h g q = .ok sy)
    (h3 : getSpouses h g p = .ok cx) (h4 : getSpouses h g q = .ok cy) : (y ∈ sx ↔ x ∈ sy) ∧ (y ∈ cx ↔ x ∈ cy) := by
  obtain ⟨⟨l1, e1, -, m1⟩, l3, e3, -, m3⟩ := C27_exact r hp
  obtain ⟨⟨l2, e2, -, m2⟩, l4, e4, -, m4⟩ := C27_exact r hq
  rw [h1] at e1; cases e1
  rw [h2] at e2; cases e2
  rw [h3] at e3; cases e3
  rw [h4] at e4; cases e4
  constructor
  · rw [m1, m2]
    constructor
    · rintro ⟨hn, z, a, b⟩; exact ⟨hn.symm, z, b, a⟩
    · rintro ⟨hn, z, a, b⟩; exact ⟨hn.symm, z, b, a⟩
  · rw [m3, m4]
    constructor
    · rintro ⟨hn, z, a, b⟩; exact ⟨hn.symm, z, b, a⟩
    · rintro ⟨hn, z, a, b⟩; exact ⟨hn.symm, z, b, a⟩

/-- **C27.** `node.siblings` and `node.co_parents` are the same lists as `get_siblings` and `get_spouses`. -/
theorem C27_node {h : Heap} (r : Reachable h) {g : GRef} (hown : ∀ n ∈ graphNodes h g, (h.node n).graph = some g)
    {x : NRef} (hx : x ∈ graphNodes h g) :
    nodeSiblings h x = getSiblings h g (.node x) ∧ nodeCoParents h x = getSpouses h g (.node x) := by
  have nc : ∀ p ∈ graphNodes h g, nodeChildren h p = .ok (kids h p) := by
    intro p hp
    simp only [nodeChildren, nodeGraph, hown p hp, bind, Except.bind]
    exact getChildren_eq r (getNode_self r hp)
  have np : ∀ p ∈ graphNodes h g, nodeParents h p = .ok (pars h p) := by
    intro p hp
    simp only [nodeParents, nodeGraph, hown p hp, bind, Except.bind]
    exact getParents_eq r (getNode_self r hp)
  constructor
  · obtain ⟨l, h1, h2, -⟩ := collect_outer r hx (down := fun p => getChildren h g (.node p))
      (down' := nodeChildren h) (f := kids h) (ups := pars h x) (acc := []) (d := [])
      (fun p hp => ⟨getChildren_eq r (getNode_self r (pars_closed r x hx p hp)),
        nc p (pars_closed r x hx p hp), kids_closed r p (pars_closed r x hx p hp)⟩)
      (by simp) (by simp) (by simp)
    simp only [nodeSiblings, np x hx, h2, getSiblings, getNode_self r hx, getParents_eq r (getNode_self r hx), bind,
      Except.bind, pure, Except.pure, h1]
    simp [dvals, Function.comp_def]
  · obtain ⟨l, h1, h2, -⟩ := collect_outer r hx (down := fun p => getParents h g (.node p))
      (down' := nodeParents h) (f := pars h) (ups := kids h x) (acc := []) (d := [])
      (fun p hp => ⟨getParents_eq r (getNode_self r (kids_closed r x hx p hp)),
        np p (kids_closed r x hx p hp), pars_closed r p (kids_closed r x hx p hp)⟩)
      (by simp) (by simp) (by simp)
    simp only [nodeCoParents, nc x hx, h2, getSpouses, getNode_self r hx, getChildren_eq r (getNode_self r hx), bind,
      Except.bind, pure, Except.pure, h1]
    simp [dvals, Function.comp_def]

/-- In the fork `p` and `q` are the parents of `x`; in the shortcut `b` and `c` are the children of `a`. -/
example : getSpouses (runOps forkOps Heap.init) 0 (.key (.str "p")) = .ok [2] ∧
    getSiblings (runOps shortcutOps Heap.init) 0 (.key (.str "b")) = .ok [2] ∧
    nodeSiblings (runOps shortcutOps Heap.init) 2 = .ok [1] ∧
    nodeCoParents (runOps shortcutOps Heap.init) 0 = .ok [2] := by decide +kernel

end Verif
