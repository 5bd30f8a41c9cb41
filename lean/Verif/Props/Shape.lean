import Verif.Spec.Shape
import Verif.Lemmas.DraftGraph
import Verif.Props.Roots
import Verif.Props.Siblings
import Verif.Props.Evolve
import Verif.Props.Similar
import Verif.Props.Copy
/-!
# C102: what the queries depend on
-/
namespace Verif
open M

theorem joined_iff {h : Heap} {g : GRef} {s t : Key} :
    Joined h g s t ↔ ∃ n m, Arrow h g n m ∧ (h.node n).id = s ∧ (h.node m).id = t := by
  constructor
  · rintro ⟨x, hx, os, ho, e, he, n, m, h1, h2, h3, h4⟩
    exact ⟨n, m, ⟨e, ⟨x, hx, os, ho, he⟩, h1, h2⟩, h3, h4⟩
  · rintro ⟨n, m, ⟨e, ⟨x, hx, os, ho, he⟩, h1, h2⟩, h3, h4⟩
    exact ⟨x, hx, os, ho, e, he, n, m, h1, h2, h3, h4⟩

theorem liveEdge_ends {h : Heap} (r : Reachable h) {g : GRef} {e : ERef} (he : LiveEdge h g e) :
    ∃ n m, edgeStart h e = .ok n ∧ edgeEnd h e = .ok m := by
  obtain ⟨A, H⟩ := r.hist
  obtain ⟨i, hi⟩ := (liveEdge_iff H.rep).1 he
  obtain ⟨n, m, b1, b2, -⟩ := H.rep.live_edge hi
  exact ⟨n, m, by simp [edgeStart, b1], by simp [edgeEnd, b2]⟩

theorem OneShape.symm {h h' : Heap} {g g' : GRef} (S : OneShape h g h' g') : OneShape h' g' h g :=
  ⟨fun k => (S.names k).symm, fun s t => (S.joined s t).symm⟩

theorem OneShape.trans {h h' h'' : Heap} {g g' g'' : GRef} (S : OneShape h g h' g') (T : OneShape h' g' h'' g'') :
    OneShape h g h'' g'' := ⟨fun k => (S.names k).trans (T.names k), fun s t => (S.joined s t).trans (T.joined s t)⟩

section
variable {h h' : Heap} (r : Reachable h) (r' : Reachable h') {g g' : GRef} (S : OneShape h g h' g')
include S

theorem OneShape.partner {n : NRef} (hn : n ∈ graphNodes h g) : ∃ n' ∈ graphNodes h' g', (h'.node n').id = (h.node n).id :=
  (S.names _).1 ⟨n, hn, rfl⟩

include r'

theorem OneShape.arrow' {n m n' m' : NRef} (hn' : n' ∈ graphNodes h' g') (hm' : m' ∈ graphNodes h' g')
    (en : (h'.node n').id = (h.node n).id) (em : (h'.node m').id = (h.node m).id) (a : Arrow h g n m) : Arrow h' g' n' m' := by
  obtain ⟨x, y, hxy, ex, ey⟩ := joined_iff.1 ((S.joined _ _).1 (joined_iff.2 ⟨n, m, a, rfl, rfl⟩))
  obtain ⟨hx, hy⟩ := arrow_mem r' hxy
  rwa [node_eq_of_name r' hn' hx (en.trans ex.symm), node_eq_of_name r' hm' hy (em.trans ey.symm)]

include r

theorem OneShape.arrow {n m n' m' : NRef} (hn : n ∈ graphNodes h g) (hm : m ∈ graphNodes h g)
    (hn' : n' ∈ graphNodes h' g') (hm' : m' ∈ graphNodes h' g')
    (en : (h'.node n').id = (h.node n).id) (em : (h'.node m').id = (h.node m).id) : Arrow h g n m ↔ Arrow h' g' n' m' :=
  ⟨S.arrow' r' hn' hm' en em, S.symm.arrow' r hn hm en.symm em.symm⟩

theorem OneShape.path' {n m n' m' : NRef} (hn' : n' ∈ graphNodes h' g') (hm' : m' ∈ graphNodes h' g')
    (en : (h'.node n').id = (h.node n).id) (em : (h'.node m').id = (h.node m).id) (p : Path h g n m) : Path h' g' n' m' := by
  induction p generalizing m' with
  | single a => exact .single (S.arrow' r' hn' hm' en em a)
  | tail _ a ih =>
    obtain ⟨b', hb', eb⟩ := S.partner (arrow_mem r a).1
    exact (ih hb' eb).tail (S.arrow' r' hb' hm' eb em a)

theorem OneShape.path {n m n' m' : NRef} (hn : n ∈ graphNodes h g) (hm : m ∈ graphNodes h g)
    (hn' : n' ∈ graphNodes h' g') (hm' : m' ∈ graphNodes h' g')
    (en : (h'.node n').id = (h.node n).id) (em : (h'.node m').id = (h.node m).id) : Path h g n m ↔ Path h' g' n' m' :=
  ⟨S.path' r r' hn' hm' en em, S.symm.path' r' r hn hm en.symm em.symm⟩

/-- Two lists of nodes without repetition, given by properties that carry over, have the same names. -/
theorem OneShape.same_names {l l' : List NRef} (hl : l.Nodup) (hl' : l'.Nodup) (P P' : NRef → Prop)
    (hP : ∀ x, x ∈ l ↔ x ∈ graphNodes h g ∧ P x) (hP' : ∀ x, x ∈ l' ↔ x ∈ graphNodes h' g' ∧ P' x)
    (hPP : ∀ x ∈ graphNodes h g, ∀ x' ∈ graphNodes h' g', (h'.node x').id = (h.node x).id → (P x ↔ P' x')) :
    (l.map fun n => (h.node n).id).Perm (l'.map fun n => (h'.node n).id) := by
  refine (List.perm_ext_iff_of_nodup ?_ ?_).2 fun k => ?_
  · exact (List.nodup_map_iff_inj_on hl).2 fun x hx y hy e => node_eq_of_name r ((hP x).1 hx).1 ((hP y).1 hy).1 e
  · exact (List.nodup_map_iff_inj_on hl').2 fun x hx y hy e => node_eq_of_name r' ((hP' x).1 hx).1 ((hP' y).1 hy).1 e
  · simp only [List.mem_map]
    constructor
    · rintro ⟨x, hx, rfl⟩
      obtain ⟨h1, h2⟩ := (hP x).1 hx
      obtain ⟨x', hx', e⟩ := S.partner h1
      exact ⟨x', (hP' x').2 ⟨hx', (hPP x h1 x' hx' e).1 h2⟩, e⟩
    · rintro ⟨x', hx', rfl⟩
      obtain ⟨h1, h2⟩ := (hP' x').1 hx'
      obtain ⟨x, hx, e⟩ := S.symm.partner h1
      exact ⟨x, (hP x).2 ⟨hx, (hPP x hx x' h1 e.symm).2 h2⟩, e⟩

/-- **C102**: the ancestors and the descendants of nodes with the same name have the same names. -/
theorem C102_reachability {a b : NodeArg} {x x' : NRef} (ha : getNode h g a = .ok x) (hb : getNode h' g' b = .ok x')
    (hxx : (h'.node x').id = (h.node x).id) {lim lim' : Nat} :
    (∀ l l', getAncestors lim h g a = .ok l → getAncestors lim' h' g' b = .ok l' →
      (l.map fun n => (h.node n).id).Perm (l'.map fun n => (h'.node n).id)) ∧
    ∀ l l', getDescendants lim h g a = .ok l → getDescendants lim' h' g' b = .ok l' →
      (l.map fun n => (h.node n).id).Perm (l'.map fun n => (h'.node n).id) := by
  have hx := getNode_mem r ha
  have hx' := getNode_mem r' hb
  constructor
  · intro l l' q q'
    obtain ⟨n1, m1⟩ := C18_ancestors r ha q
    obtain ⟨n2, m2⟩ := C18_ancestors r' hb q'
    refine S.same_names r r' n1 n2 (fun y => Path h g y x) (fun y => Path h' g' y x') ?_ ?_ ?_
    · intro y; rw [m1]; exact ⟨fun p => ⟨(Path.mem r p).1, p⟩, fun p => p.2⟩
    · intro y; rw [m2]; exact ⟨fun p => ⟨(Path.mem r' p).1, p⟩, fun p => p.2⟩
    · intro y hy y' hy' e; exact S.path r r' hy hx hy' hx' e hxx
  · intro l l' q q'
    obtain ⟨n1, m1, -⟩ := C19_descendants r ha q
    obtain ⟨n2, m2, -⟩ := C19_descendants r' hb q'
    refine S.same_names r r' n1 n2 (fun y => y ≠ x ∧ Path h g x y) (fun y => y ≠ x' ∧ Path h' g' x' y) ?_ ?_ ?_
    · intro y; rw [m1]; exact ⟨fun p => ⟨(Path.mem r p.2).2, p⟩, fun p => p.2⟩
    · intro y; rw [m2]; exact ⟨fun p => ⟨(Path.mem r' p.2).2, p⟩, fun p => p.2⟩
    · intro y hy y' hy' e
      refine and_congr (not_congr ⟨?_, ?_⟩) (S.path r r' hx hy hx' hy' hxx e)
      · rintro rfl; exact node_eq_of_name r' hy' hx' (e.trans hxx.symm)
      · rintro rfl; exact node_eq_of_name r hy hx (e.symm.trans hxx)

/-- **C102**: nodes with the same names are in loops alike. -/
theorem C102_loops {a b a2 b2 : NodeArg} {x x' y y' : NRef} (ha : getNode h g a = .ok x) (hb : getNode h' g' b = .ok x')
    (hxx : (h'.node x').id = (h.node x).id) (ha2 : getNode h g a2 = .ok y) (hb2 : getNode h' g' b2 = .ok y')
    (hyy : (h'.node y').id = (h.node y).id) {lim lim' : Nat} :
    (∀ u u', isNodeInLoop lim h g a = .ok u → isNodeInLoop lim' h' g' b = .ok u' → u = u') ∧
    ∀ u u', areNodesInSameLoop lim h g a a2 = .ok u → areNodesInSameLoop lim' h' g' b b2 = .ok u' → u = u' := by
  have hx := getNode_mem r ha
  have hx' := getNode_mem r' hb
  have hy := getNode_mem r ha2
  have hy' := getNode_mem r' hb2
  constructor
  · intro u u' q q'
    rw [Bool.eq_iff_iff, C22_in_loop r ha q, C22_in_loop r' hb q']
    exact S.path r r' hx hx hx' hx' hxx hxx
  · intro u u' q q'
    rw [Bool.eq_iff_iff, C23_same_loop r ha ha2 q, C23_same_loop r' hb hb2 q']
    exact and_congr (S.path r r' hx hy hx' hy' hxx hyy) (S.path r r' hy hx hy' hx' hyy hxx)

/-- **C102**: siblings and spouses have the same names. -/
theorem C102_siblings {a b : NodeArg} {x x' : NRef} (ha : getNode h g a = .ok x) (hb : getNode h' g' b = .ok x')
    (hxx : (h'.node x').id = (h.node x).id) :
    (∃ l l', getSiblings h g a = .ok l ∧ getSiblings h' g' b = .ok l' ∧
      (l.map fun n => (h.node n).id).Perm (l'.map fun n => (h'.node n).id)) ∧
    ∃ l l', getSpouses h g a = .ok l ∧ getSpouses h' g' b = .ok l' ∧
      (l.map fun n => (h.node n).id).Perm (l'.map fun n => (h'.node n).id) := by
  have hx := getNode_mem r ha
  have hx' := getNode_mem r' hb
  obtain ⟨⟨l, q, n1, m1⟩, ⟨k, z, n3, m3⟩⟩ := C27_exact r ha
  obtain ⟨⟨l', q', n2, m2⟩, ⟨k', z', n4, m4⟩⟩ := C27_exact r' hb
  have ne : ∀ y ∈ graphNodes h g, ∀ y' ∈ graphNodes h' g', (h'.node y').id = (h.node y).id → (y ≠ x ↔ y' ≠ x') := by
    intro y hy y' hy' e
    refine not_congr ⟨?_, ?_⟩
    · rintro rfl; exact node_eq_of_name r' hy' hx' (e.trans hxx.symm)
    · rintro rfl; exact node_eq_of_name r hy hx (e.symm.trans hxx)
  refine ⟨⟨l, l', q, q', ?_⟩, ⟨k, k', z, z', ?_⟩⟩
  · refine S.same_names r r' n1 n2 (fun y => y ≠ x ∧ ∃ p, Arrow h g p x ∧ Arrow h g p y)
      (fun y => y ≠ x' ∧ ∃ p, Arrow h' g' p x' ∧ Arrow h' g' p y) (fun y => ?_) (fun y => ?_) ?_
    · rw [m1]; exact ⟨fun ⟨i, p, j, k⟩ => ⟨(arrow_mem r k).2, i, p, j, k⟩, fun p => p.2⟩
    · rw [m2]; exact ⟨fun ⟨i, p, j, k⟩ => ⟨(arrow_mem r' k).2, i, p, j, k⟩, fun p => p.2⟩
    · intro y hy y' hy' e
      refine and_congr (ne y hy y' hy' e) ⟨?_, ?_⟩
      · rintro ⟨p, i, j⟩
        obtain ⟨p', hp', ep⟩ := S.partner (arrow_mem r i).1
        exact ⟨p', S.arrow' r' hp' hx' ep hxx i, S.arrow' r' hp' hy' ep e j⟩
      · rintro ⟨p, i, j⟩
        obtain ⟨p', hp', ep⟩ := S.symm.partner (arrow_mem r' i).1
        exact ⟨p', S.symm.arrow' r hp' hx ep hxx.symm i, S.symm.arrow' r hp' hy ep e.symm j⟩
  · refine S.same_names r r' n3 n4 (fun y => y ≠ x ∧ ∃ c, Arrow h g x c ∧ Arrow h g y c)
      (fun y => y ≠ x' ∧ ∃ c, Arrow h' g' x' c ∧ Arrow h' g' y c) (fun y => ?_) (fun y => ?_) ?_
    · rw [m3]; exact ⟨fun ⟨i, p, j, k⟩ => ⟨(arrow_mem r k).1, i, p, j, k⟩, fun p => p.2⟩
    · rw [m4]; exact ⟨fun ⟨i, p, j, k⟩ => ⟨(arrow_mem r' k).1, i, p, j, k⟩, fun p => p.2⟩
    · intro y hy y' hy' e
      refine and_congr (ne y hy y' hy' e) ⟨?_, ?_⟩
      · rintro ⟨p, i, j⟩
        obtain ⟨p', hp', ep⟩ := S.partner (arrow_mem r i).2
        exact ⟨p', S.arrow' r' hx' hp' hxx ep i, S.arrow' r' hy' hp' e ep j⟩
      · rintro ⟨p, i, j⟩
        obtain ⟨p', hp', ep⟩ := S.symm.partner (arrow_mem r' i).2
        exact ⟨p', S.symm.arrow' r hx hp' hxx.symm ep i, S.symm.arrow' r hy hp' e.symm ep j⟩

/-- **C102**: the nodes without parents, and the nodes without children, have the same names. -/
theorem C102_ends (hown : ∀ n ∈ graphNodes h g, (h.node n).graph = some g)
    (hown' : ∀ n ∈ graphNodes h' g', (h'.node n).graph = some g') :
    (∃ l l', absoluteRoots h g = .ok l ∧ absoluteRoots h' g' = .ok l' ∧
      (l.map fun n => (h.node n).id).Perm (l'.map fun n => (h'.node n).id)) ∧
    ∃ l l', leaves h g = .ok l ∧ leaves h' g' = .ok l' ∧
      (l.map fun n => (h.node n).id).Perm (l'.map fun n => (h'.node n).id) := by
  obtain ⟨⟨l, q1, s1, m1⟩, k, q2, s2, m2⟩ := C26_exact r hown
  obtain ⟨⟨l', q1', s1', m1'⟩, k', q2', s2', m2'⟩ := C26_exact r' hown'
  have nd := graphNodes_nodup r g
  have nd' := graphNodes_nodup r' g'
  refine ⟨⟨l, l', q1, q1', ?_⟩, k, k', q2, q2', ?_⟩
  · refine S.same_names r r' (nd.sublist s1) (nd'.sublist s1') _ _ m1 m1' fun y hy y' hy' e => not_congr ⟨?_, ?_⟩
    · rintro ⟨f, hf, hfe⟩
      obtain ⟨x, -, hx, -⟩ := liveEdge_ends r hf
      obtain ⟨x', hx', ex⟩ := S.partner (arrow_mem r ⟨f, hf, hx, hfe⟩).1
      obtain ⟨f', h1, -, h2⟩ := S.arrow' r' hx' hy' ex e ⟨f, hf, hx, hfe⟩
      exact ⟨f', h1, h2⟩
    · rintro ⟨f, hf, hfe⟩
      obtain ⟨x, -, hx, -⟩ := liveEdge_ends r' hf
      obtain ⟨x', hx', ex⟩ := S.symm.partner (arrow_mem r' ⟨f, hf, hx, hfe⟩).1
      obtain ⟨f', h1, -, h2⟩ := S.symm.arrow' r hx' hy ex e.symm ⟨f, hf, hx, hfe⟩
      exact ⟨f', h1, h2⟩
  · refine S.same_names r r' (nd.sublist s2) (nd'.sublist s2') _ _ m2 m2' fun y hy y' hy' e => not_congr ⟨?_, ?_⟩
    · rintro ⟨f, hf, hfe⟩
      obtain ⟨-, x, -, hx⟩ := liveEdge_ends r hf
      obtain ⟨x', hx', ex⟩ := S.partner (arrow_mem r ⟨f, hf, hfe, hx⟩).2
      obtain ⟨f', h1, h2, -⟩ := S.arrow' r' hy' hx' e ex ⟨f, hf, hfe, hx⟩
      exact ⟨f', h1, h2⟩
    · rintro ⟨f, hf, hfe⟩
      obtain ⟨-, x, -, hx⟩ := liveEdge_ends r' hf
      obtain ⟨x', hx', ex⟩ := S.symm.partner (arrow_mem r' ⟨f, hf, hfe, hx⟩).2
      obtain ⟨f', h1, h2, -⟩ := S.symm.arrow' r hy hx' e.symm ex ⟨f, hf, hfe, hx⟩
      exact ⟨f', h1, h2⟩

/-- Every root of the first graph has a root of the second that is of its name, or of the name of a node in a loop with it. -/
theorem OneShape.root {lim lim' : Nat} {R R' : List NRef} (hlim : (graphNodes h g).length ≤ lim)
    (hlim' : (graphNodes h' g').length ≤ lim') (hR : roots lim h g = .ok R) (hR' : roots lim' h' g' = .ok R') :
    ∀ p ∈ R, ∃ q' ∈ R', ∃ q ∈ graphNodes h g, (h'.node q').id = (h.node q).id ∧ (q = p ∨ (Path h g p q ∧ Path h g q p)) := by
  obtain ⟨R1, e1, s1, cover, indep, -⟩ := C25_roots r g hlim
  rw [hR] at e1
  obtain rfl := Except.ok.inj e1
  obtain ⟨R2, e2, s2, cover', -⟩ := C25_roots r' g' hlim'
  rw [hR'] at e2
  obtain rfl := Except.ok.inj e2
  intro p hp
  have hpg := s1.subset hp
  obtain ⟨p', hp', ep⟩ := S.partner hpg
  have : ∃ q' ∈ R', q' = p' ∨ Path h' g' q' p' := by
    rcases cover' p' hp' with c | ⟨q', hq, c⟩
    · exact ⟨p', c, .inl rfl⟩
    · exact ⟨q', hq, .inr c⟩
  obtain ⟨q', hq', c⟩ := this
  have hqg' := s2.subset hq'
  obtain ⟨q, hq, eq⟩ := S.symm.partner hqg'
  refine ⟨q', hq', q, hq, eq.symm, ?_⟩
  rcases c with rfl | c
  · exact .inl (node_eq_of_name r hq hpg (eq.trans ep))
  · have c1 : Path h g q p := S.symm.path' r' r hq hpg eq ep.symm c
    right
    rcases cover q hq with c2 | ⟨p2, hp2, c2⟩
    · by_cases e : p = q
      · subst e; exact ⟨c1, c1⟩
      · exact absurd c1 (indep q c2 p hp e)
    · by_cases e : p = p2
      · subst e; exact ⟨c2, c1⟩
      · exact absurd (c2.trans c1) (indep p2 hp2 p hp e)

/-- **C102**: `roots` may choose other nodes of a loop, but as many, and each one either the same or in a loop with the other choice. -/
theorem C102_roots {lim lim' : Nat} {R R' : List NRef} (hlim : (graphNodes h g).length ≤ lim)
    (hlim' : (graphNodes h' g').length ≤ lim') (hR : roots lim h g = .ok R) (hR' : roots lim' h' g' = .ok R') :
    R.length = R'.length ∧
      ∀ p ∈ R, ∃ q' ∈ R', ∃ q ∈ graphNodes h g, (h'.node q').id = (h.node q).id ∧ (q = p ∨ (Path h g p q ∧ Path h g q p)) := by
  have le : ∀ {h h' : Heap} (r : Reachable h) (r' : Reachable h') {g g' : GRef} (_ : OneShape h g h' g') {lim lim' : Nat} {R R' : List NRef}
      (_ : (graphNodes h g).length ≤ lim) (_ : (graphNodes h' g').length ≤ lim') (_ : roots lim h g = .ok R)
      (_ : roots lim' h' g' = .ok R'), R.length ≤ R'.length := by
    intro h h' r r' g g' S lim lim' R R' hlim hlim' hR hR'
    have key := S.root r r' hlim hlim' hR hR'
    obtain ⟨R1, e1, s1, -, indep, -⟩ := C25_roots r g hlim
    rw [hR] at e1
    obtain rfl := Except.ok.inj e1
    have hnd := (graphNodes_nodup r g).sublist s1
    obtain ⟨f, hf⟩ : ∃ f : NRef → NRef, ∀ p ∈ R, f p ∈ R' ∧
        ∃ q ∈ graphNodes h g, (h'.node (f p)).id = (h.node q).id ∧ (q = p ∨ (Path h g p q ∧ Path h g q p)) := by
      refine ⟨fun p => if hp : p ∈ R then (key p hp).choose else 0, fun p hp => ?_⟩
      simp only [hp, dif_pos]
      exact (key p hp).choose_spec
    have inj : ∀ a ∈ R, ∀ b ∈ R, f a = f b → a = b := by
      intro a ha b hb e
      obtain ⟨-, q, hq, e1, c1⟩ := hf a ha
      obtain ⟨-, q2, hq2, e2, c2⟩ := hf b hb
      obtain rfl := node_eq_of_name r hq hq2 (e1.symm.trans (e ▸ e2))
      refine Classical.byContradiction fun hne => ?_
      rcases c1 with rfl | ⟨c1, c1'⟩ <;> rcases c2 with c2 | ⟨c2, c2'⟩
      · exact hne c2
      · exact indep _ ha _ hb (Ne.symm hne) c2'
      · exact indep _ ha _ hb (Ne.symm hne) (c2 ▸ c1)
      · exact indep _ ha _ hb (Ne.symm hne) (c1.trans c2')
    have := (List.nodup_map_iff_inj_on hnd).2 inj
    have hsub : (R.map f).Subperm R' := List.subperm_of_subset this (by
      intro y hy
      obtain ⟨p, hp, rfl⟩ := List.mem_map.1 hy
      exact (hf p hp).1)
    simpa using hsub.length_le
  exact ⟨Nat.le_antisymm (le r r' S hlim hlim' hR hR') (le r' r S.symm hlim' hlim hR' hR), S.root r r' hlim hlim' hR hR'⟩

end

/-- **C42**: similarity is transitive. -/
theorem C42_transitive {h : Heap} (r : Reachable h) {g1 g2 g3 : GRef} (h1 : graphSimilar h g1 g2 = .ok true)
    (h2 : graphSimilar h g2 g3 = .ok true) : graphSimilar h g1 g3 = .ok true := by
  obtain ⟨A, H⟩ := r.hist
  rw [C42_exact H] at h1 h2 ⊢
  refine ⟨fun k => (h1.names k).trans (h2.names k), fun i => (h1.ids i).trans (h2.ids i), ?_, ?_, h1.strict.trans h2.strict,
    h1.ordering.trans h2.ordering⟩
  · intro k n n' hn hn'
    obtain ⟨⟨k', m⟩, hm, e⟩ := List.mem_map.1 ((h1.names k).1 (List.mem_map.2 ⟨_, hn, rfl⟩))
    simp only at e
    subst e
    obtain ⟨a1, a2, a3⟩ := h1.nodes _ _ _ hn hm
    obtain ⟨b1, b2, b3⟩ := h2.nodes _ _ _ hm hn'
    exact ⟨a1.trans b1, a2.trans b2, fun k => (a3 k).trans (b3 k)⟩
  · intro i e e' he he'
    obtain ⟨f, hf⟩ := Rep.mem_ids.1 ((h1.ids i).1 (Rep.mem_ids.2 ⟨_, he⟩))
    obtain ⟨a1, a2, a3⟩ := h1.edges _ _ _ he hf
    obtain ⟨b1, b2, b3⟩ := h2.edges _ _ _ hf he'
    exact ⟨a1.trans b1, a2.trans b2, fun k => (a3 k).trans (b3 k)⟩

/-- The shape, from the abstract graphs. -/
theorem sameShape_of {h h' : Heap} {A A' : Spec} (R : Rep h A) (R' : Rep h' A') {g g' : GRef}
    (hn : ∀ k, k ∈ (A.graph g).names ↔ k ∈ (A'.graph g').names)
    (he : ∀ s t, (∃ i, (s, t, i) ∈ (A.graph g).ids) ↔ ∃ i, (s, t, i) ∈ (A'.graph g').ids) : OneShape h g h' g' := by
  have names : ∀ {h : Heap} {A : Spec} (_ : Rep h A) (g : GRef) (k : Key),
      (∃ n ∈ graphNodes h g, (h.node n).id = k) ↔ k ∈ (A.graph g).names := by
    intro h A R g k
    constructor
    · rintro ⟨n, hn, rfl⟩
      obtain ⟨k, hk⟩ := (mem_graphNodes R).1 hn
      rw [(R.nodeOk _ _ _ hk).2.1]
      exact List.mem_map.2 ⟨_, hk, rfl⟩
    · intro hk
      obtain ⟨⟨k', n⟩, hn, rfl⟩ := List.mem_map.1 hk
      exact ⟨n, (mem_graphNodes R).2 ⟨_, hn⟩, (R.nodeOk _ _ _ hn).2.1⟩
  have joined : ∀ {h : Heap} {A : Spec} (_ : Rep h A) (g : GRef) (s t : Key),
      Joined h g s t ↔ ∃ i, (s, t, i) ∈ (A.graph g).ids := by
    intro h A R g s t
    rw [joined_iff]
    constructor
    · rintro ⟨n, m, a, rfl, rfl⟩
      obtain ⟨⟨s, t, i⟩, e, h1, h2, h3⟩ := R.arrow_iff.1 a
      rw [(R.nodeOk _ _ _ h2).2.1, (R.nodeOk _ _ _ h3).2.1]
      exact ⟨i, Rep.mem_ids.2 ⟨e, h1⟩⟩
    · rintro ⟨i, hi⟩
      obtain ⟨e, he⟩ := Rep.mem_ids.1 hi
      obtain ⟨n, m, -, -, -, -, -, b6, b7⟩ := R.live_edge he
      exact ⟨n, m, R.arrow_iff.2 ⟨_, e, he, b6, b7⟩, (R.nodeOk _ _ _ b6).2.1, (R.nodeOk _ _ _ b7).2.1⟩
  exact ⟨fun k => by rw [names R, names R', hn], fun s t => by rw [joined R, joined R', he]⟩

/-- **C102**: similar graphs have the same shape. -/
theorem C102_similar {h : Heap} (r : Reachable h) {g g' : GRef} (hs : graphSimilar h g g' = .ok true) : OneShape h g h g' := by
  obtain ⟨A, H⟩ := r.hist
  rw [C42_exact H] at hs
  exact sameShape_of H.rep H.rep hs.names fun s t => ⟨fun ⟨i, hi⟩ => ⟨i, (hs.ids _).1 hi⟩, fun ⟨i, hi⟩ => ⟨i, (hs.ids _).2 hi⟩⟩

/-- **C102**: a copy has the shape of the original. -/
theorem C102_copy {h h' : Heap} (r : Reachable h) {g g' : GRef} {φ : NRef → NRef} {ψ : ERef → ERef} (c : CopyOf h h' g g' φ ψ) :
    OneShape h g h' g' := by
  refine ⟨fun k => ?_, fun s t => ?_⟩
  · rw [c.nodes]
    simp only [List.mem_map]
    constructor
    · rintro ⟨n, hn, rfl⟩; exact ⟨φ n, ⟨n, hn, rfl⟩, (c.node n hn).2.1⟩
    · rintro ⟨-, ⟨n, hn, rfl⟩, rfl⟩; exact ⟨n, hn, (c.node n hn).2.1.symm⟩
  · have name : ∀ {e n m}, LiveEdge h g e → edgeStart h e = .ok n → edgeEnd h e = .ok m →
        (h'.node (φ n)).id = (h.node n).id ∧ (h'.node (φ m)).id = (h.node m).id := by
      intro e n m he h1 h2
      obtain ⟨x1, x2⟩ := arrow_mem r ⟨e, he, h1, h2⟩
      exact ⟨(c.node n x1).2.1, (c.node m x2).2.1⟩
    constructor
    · rintro ⟨x, hx, os, ho, e, he, n, m, h1, h2, rfl, rfl⟩
      obtain ⟨os', is, q1, q2, -⟩ := c.edges x hx
      rw [ho] at q1
      obtain rfl := Except.ok.inj q1
      obtain ⟨s, t, i, e1, e2, -, e4, e5, -⟩ := c.edge e ⟨x, hx, os, ho, he⟩
      obtain rfl := Except.ok.inj (h1.symm.trans e1)
      obtain rfl := Except.ok.inj (h2.symm.trans e2)
      obtain ⟨n1, n2⟩ := name ⟨x, hx, os, ho, he⟩ h1 h2
      exact ⟨φ x, by rw [c.nodes]; exact List.mem_map_of_mem hx, _, q2, ψ e, List.mem_map_of_mem he, φ n, φ m, e4, e5, n1, n2⟩
    · rintro ⟨x', hx', os', ho', e', he', n', m', h1, h2, rfl, rfl⟩
      rw [c.nodes] at hx'
      obtain ⟨x, hx, rfl⟩ := List.mem_map.1 hx'
      obtain ⟨os, is, q1, q2, -⟩ := c.edges x hx
      rw [ho'] at q2
      obtain rfl := Except.ok.inj q2
      obtain ⟨e, he, rfl⟩ := List.mem_map.1 he'
      obtain ⟨s, t, i, e1, e2, -, e4, e5, -⟩ := c.edge e ⟨x, hx, os, q1, he⟩
      obtain rfl := Except.ok.inj (h1.symm.trans e4)
      obtain rfl := Except.ok.inj (h2.symm.trans e5)
      obtain ⟨n1, n2⟩ := name ⟨x, hx, os, q1, he⟩ e1 e2
      exact ⟨x, hx, os, q1, e, he, s, t, e1, e2, n1.symm, n2.symm⟩

end Verif
