import Verif.Lemmas.Sketch
import Verif.Lemmas.StackDepth
/-!
# The recursion of `get_tree_str` draws the sketch
-/
namespace Verif
open Outline

theorem drawAll_cons (label : Nat → String) (ind : String) (T : Outline) (F : List Outline) :
    drawAll label ind (T :: F) = ind ++ (if F = [] then "└" else "├") ++ " " ++ draw label (ind ++ if F = [] then "  " else "│ ") T ++
      drawAll label ind F := by
  cases F with
  | nil =>
    have hs : "└" ++ " " = "└ " := rfl
    simp [drawAll, ← hs, String.append_assoc]
  | cons T' F =>
    have hs : "├" ++ " " = "├ " := rfl
    simp [drawAll, ← hs, String.append_assoc]

theorem Drawing.length {next : Nat → List Nat} {a todo F a'} (h : Drawing next a todo F a') : F.length = todo.length := by
  induction h <;> simp_all

/-- The loop of `get_tree_str` over the rest of the children of `p`, with `fuel` frames left. -/
theorem treeFold_stack {h : Heap} (r : Reachable h) {g : GRef} (hown : ∀ n ∈ graphNodes h g, (h.node n).graph = some g)
    {a todo : List NRef} {F : List Outline} {a' : List NRef} (s : Drawing (Verif.kids h) a todo F a') :
    ∀ (fuel k : Nat) (p : NRef) (ind str : String) (add : List NRef) (idx K : Nat),
      (∀ y ∈ todo, y ∈ graphNodes h g) → p ∈ graphNodes h g → (∀ y ∈ add, y ∈ graphNodes h g) → idx + todo.length = K →
      (∀ y, y ∈ add ++ [p] ↔ y ∈ a) →
      let run := todo.foldlM (m := Except PyErr) (fun (s : String × List NRef × Nat) child => do
              let last := s.2.2 + 1 = K
              let sub ← treeStrRec h fuel child (ind ++ if last then "  " else "│ ") (s.2.1 ++ [p])
              .ok (s.1 ++ ind ++ (if last then "└" else "├") ++ " " ++ sub.1, sub.2, s.2.2 + 1)) (str, add, idx)
      if ∀ q ∈ depthsAll k F, q.1 < k + fuel then
        ∃ add' i, run = .ok (str ++ drawAll (nodeLabel h) ind F, add', i) ∧ (∀ y ∈ add', y ∈ graphNodes h g) ∧
          (∀ y, y ∈ add' ++ [p] ↔ y ∈ a') ∧ (todo ≠ [] → p ∈ add') ∧ (todo = [] → add' = add) ∧ (p ∈ add → p ∈ add')
      else run = .error .recursionError := by
  induction s with
  | nil a =>
    intro fuel k p ind str add idx K _ _ hadd _ heq
    simp only [depthsAll, List.not_mem_nil, false_implies, implies_true, if_true]
    exact ⟨add, idx, by simp [drawAll, pure, Except.pure], hadd, heq, by simp, by simp, id⟩
  | @star a a' x xs F hx sF ih =>
    intro fuel k p ind str add idx K htodo hp hadd hK heq
    have hF := sF.length
    have haddp : ∀ y ∈ add ++ [p], y ∈ graphNodes h g := by
      intro y hy
      rcases List.mem_append.1 hy with hy | hy
      · exact hadd y hy
      · rw [List.mem_singleton.1 hy]; exact hp
    have hlast : (idx + 1 = K) = (F = []) := by
      simp only [List.length_cons] at hK
      rw [← List.length_eq_zero_iff]
      exact propext (by omega)
    cases fuel with
    | zero =>
      rw [if_neg (by intro q; exact absurd (q (k, x) (by simp [depthsAll, depths])) (by simp))]
      simp [List.foldlM_cons, treeStrRec, bind, Except.bind]
    | succ fuel =>
      have e1 : ∀ i, treeStrRec h (fuel + 1) x i (add ++ [p]) = .ok (nodeLabel h x ++ "*\n", add ++ [p]) := by
        intro i
        rw [treeStrRec, memNode_eq r (htodo x (by simp)) haddp, if_pos (by simp only [inList, decide_eq_true_eq]; exact (heq x).2 hx)]
      simp only [List.foldlM_cons, e1]
      simp only [bind, Except.bind]
      have := ih (fuel + 1) k p ind (str ++ ind ++ (if idx + 1 = K then "└" else "├") ++ " " ++ (nodeLabel h x ++ "*\n")) (add ++ [p])
        (idx + 1) K (fun y hy => htodo y (by simp [hy])) hp haddp (by simp only [List.length_cons] at hK; omega)
        (by intro y; rw [← heq y]; simp)
      by_cases hr : ∀ q ∈ depthsAll k F, q.1 < k + (fuel + 1)
      · rw [if_pos hr] at this
        rw [if_pos (by
          intro q hq
          simp only [depthsAll, depths, List.mem_append, List.mem_cons, List.not_mem_nil, or_false] at hq
          rcases hq with rfl | hq
          · simp only; omega
          · exact hr q hq)]
        obtain ⟨add', i, q1, q2, q3, q4, q5, q6⟩ := this
        refine ⟨add', i, ?_, q2, q3, fun _ => q6 (by simp), by simp, fun _ => q6 (by simp)⟩
        refine Eq.trans q1 ?_
        rw [drawAll_cons]
        simp only [hlast, draw, drawAll, String.append_assoc, if_true, String.append_empty]
        have : "*" ++ "\n" = "*\n" := rfl
        rw [← this, String.append_assoc]
      · rw [if_neg hr] at this
        rw [if_neg (fun q => hr fun f hf => q f (by simp only [depthsAll]; exact List.mem_append_right _ hf))]
        exact this
  | @leaf a a' x xs F hx hn sF ih =>
    intro fuel k p ind str add idx K htodo hp hadd hK heq
    have hF := sF.length
    have haddp : ∀ y ∈ add ++ [p], y ∈ graphNodes h g := by
      intro y hy
      rcases List.mem_append.1 hy with hy | hy
      · exact hadd y hy
      · rw [List.mem_singleton.1 hy]; exact hp
    have hlast : (idx + 1 = K) = (F = []) := by
      simp only [List.length_cons] at hK
      rw [← List.length_eq_zero_iff]
      exact propext (by omega)
    cases fuel with
    | zero =>
      rw [if_neg (by intro q; exact absurd (q (k, x) (by simp [depthsAll, depths])) (by simp))]
      simp [List.foldlM_cons, treeStrRec, bind, Except.bind]
    | succ fuel =>
      have hxg := htodo x (by simp)
      have hch : nodeChildren h x = .ok (Verif.kids h x) := by
        simp only [nodeChildren, nodeGraph, hown x hxg, bind, Except.bind]
        exact getChildren_eq r (getNode_self r hxg)
      have e1 : ∀ i, treeStrRec h (fuel + 1) x i (add ++ [p]) = .ok (nodeLabel h x ++ "\n", add ++ [p]) := by
        intro i
        rw [treeStrRec, memNode_eq r hxg haddp, if_neg (by simp only [inList, decide_eq_true_eq]; exact fun c => hx ((heq x).1 c)), hch, hn]
        rfl
      simp only [List.foldlM_cons, e1]
      simp only [bind, Except.bind]
      have := ih (fuel + 1) k p ind (str ++ ind ++ (if idx + 1 = K then "└" else "├") ++ " " ++ (nodeLabel h x ++ "\n")) (add ++ [p])
        (idx + 1) K (fun y hy => htodo y (by simp [hy])) hp haddp (by simp only [List.length_cons] at hK; omega)
        (by intro y; rw [← heq y]; simp)
      by_cases hr : ∀ q ∈ depthsAll k F, q.1 < k + (fuel + 1)
      · rw [if_pos hr] at this
        rw [if_pos (by
          intro q hq
          simp only [depthsAll, depths, List.mem_append, List.mem_cons, List.not_mem_nil, or_false] at hq
          rcases hq with rfl | hq
          · simp only; omega
          · exact hr q hq)]
        obtain ⟨add', i, q1, q2, q3, q4, q5, q6⟩ := this
        refine ⟨add', i, ?_, q2, q3, fun _ => q6 (by simp), by simp, fun _ => q6 (by simp)⟩
        refine Eq.trans q1 ?_
        rw [drawAll_cons]
        simp [hlast, draw, drawAll, String.append_assoc]
      · rw [if_neg hr] at this
        rw [if_neg (fun q => hr fun f hf => q f (by simp only [depthsAll]; exact List.mem_append_right _ hf))]
        exact this
  | @expand a b a' x xs S F hx hn sS sF ih1 ih2 =>
    intro fuel k p ind str add idx K htodo hp hadd hK heq
    have hF := sF.length
    have haddp : ∀ y ∈ add ++ [p], y ∈ graphNodes h g := by
      intro y hy
      rcases List.mem_append.1 hy with hy | hy
      · exact hadd y hy
      · rw [List.mem_singleton.1 hy]; exact hp
    have hlast : (idx + 1 = K) = (F = []) := by
      simp only [List.length_cons] at hK
      rw [← List.length_eq_zero_iff]
      exact propext (by omega)
    cases fuel with
    | zero =>
      rw [if_neg (by intro q; exact absurd (q (k, x) (by simp [depthsAll, depths])) (by simp))]
      simp [List.foldlM_cons, treeStrRec, bind, Except.bind]
    | succ fuel =>
      have hxg := htodo x (by simp)
      have hch : nodeChildren h x = .ok (Verif.kids h x) := by
        simp only [nodeChildren, nodeGraph, hown x hxg, bind, Except.bind]
        exact getChildren_eq r (getNode_self r hxg)
      have key : ∀ i : String, ((∀ q ∈ depthsAll (k + 1) S, q.1 < k + 1 + fuel) →
          ∃ add', treeStrRec h (fuel + 1) x i (add ++ [p]) = .ok (nodeLabel h x ++ "\n" ++ drawAll (nodeLabel h) i S, add') ∧
            (∀ y ∈ add', y ∈ graphNodes h g) ∧ (∀ y, y ∈ add' ↔ y ∈ b)) ∧
          ((¬ ∀ q ∈ depthsAll (k + 1) S, q.1 < k + 1 + fuel) → treeStrRec h (fuel + 1) x i (add ++ [p]) = .error .recursionError) := by
        intro i
        have := ih1 fuel (k + 1) x i (nodeLabel h x ++ "\n") (add ++ [p]) 0 (Verif.kids h x).length (kids_closed r x hxg) hxg haddp
          (by simp) (by intro y; simp only [List.mem_append (s := a), ← heq y]; simp [or_assoc])
        simp only at this
        constructor
        · intro hs
          rw [if_pos hs] at this
          obtain ⟨add', j, q1, q2, q3, q4, q5, q6⟩ := this
          refine ⟨add', ?_, q2, ?_⟩
          · rw [treeStrRec, memNode_eq r hxg haddp, if_neg (by simp only [inList, decide_eq_true_eq]; exact fun c => hx ((heq x).1 c)), hch]
            show (List.foldlM (m := Except PyErr) _ _ _ >>= fun (r : String × List NRef × Nat) => _) = _
            rw [q1]
            rfl
          · intro y
            rw [← q3 y]
            simp only [List.mem_append, List.mem_singleton]
            constructor
            · exact .inl
            · rintro (c | rfl)
              · exact c
              · exact q4 hn
        · intro hs
          rw [if_neg hs] at this
          rw [treeStrRec, memNode_eq r hxg haddp, if_neg (by simp only [inList, decide_eq_true_eq]; exact fun c => hx ((heq x).1 c)), hch]
          show (List.foldlM (m := Except PyErr) _ _ _ >>= fun (r : String × List NRef × Nat) => _) = _
          rw [this]
          rfl
      have key := key (ind ++ if idx + 1 = K then "  " else "│ ")
      simp only [List.foldlM_cons]
      by_cases hs : ∀ q ∈ depthsAll (k + 1) S, q.1 < k + 1 + fuel
      · obtain ⟨add1, e1, c1, c2⟩ := key.1 hs
        rw [e1]
        simp only [bind, Except.bind]
        have hpb : p ∈ b := by
          have hpa : p ∈ a := (heq p).1 (by simp)
          exact sS.grow p (by simp [hpa])
        have := ih2 (fuel + 1) k p ind (str ++ ind ++ (if idx + 1 = K then "└" else "├") ++ " " ++
            (nodeLabel h x ++ "\n" ++ drawAll (nodeLabel h) (ind ++ if idx + 1 = K then "  " else "│ ") S)) add1
          (idx + 1) K (fun y hy => htodo y (by simp [hy])) hp c1 (by simp only [List.length_cons] at hK; omega)
          (by
            intro y
            rw [← c2 y]
            simp only [List.mem_append, List.mem_singleton]
            constructor
            · rintro (c | rfl)
              · exact c
              · exact (c2 y).2 hpb
            · exact .inl)
        by_cases hr : ∀ q ∈ depthsAll k F, q.1 < k + (fuel + 1)
        · rw [if_pos hr] at this
          rw [if_pos (by
            intro q hq
            simp only [depthsAll, depths, List.mem_append, List.mem_cons] at hq
            rcases hq with (rfl | hq) | hq
            · simp only; omega
            · have := hs q hq; omega
            · exact hr q hq)]
          obtain ⟨add', i, q1, q2, q3, q4, q5, q6⟩ := this
          have hp1 := q6 ((c2 p).2 hpb)
          refine ⟨add', i, ?_, q2, q3, fun _ => hp1, by simp, fun _ => hp1⟩
          refine Eq.trans q1 ?_
          rw [drawAll_cons]
          simp [hlast, draw, String.append_assoc]
        · rw [if_neg hr] at this
          rw [if_neg (fun q => hr fun f hf => q f (by simp only [depthsAll]; exact List.mem_append_right _ hf))]
          exact this
      · rw [key.2 hs, if_neg (fun q => hs fun f hf => by
          have := q f (by simp only [depthsAll, depths]; exact List.mem_append_left _ (List.mem_cons_of_mem _ hf))
          omega)]
        rfl

/-- One call of the recursion. -/
theorem treeStrRec_sketch {h : Heap} (r : Reachable h) {g : GRef} (hown : ∀ n ∈ graphNodes h g, (h.node n).graph = some g)
    {a : List NRef} {n : NRef} {T : Outline} {a' : List NRef} (s : Drawing (Verif.kids h) a [n] [T] a') (fuel : Nat) (ind : String)
    {add : List NRef} (hn : n ∈ graphNodes h g) (hadd : ∀ y ∈ add, y ∈ graphNodes h g) (heq : ∀ y, y ∈ add ↔ y ∈ a) :
    ((∀ q ∈ depths 0 T, q.1 < fuel) → ∃ add', treeStrRec h fuel n ind add = .ok (T.draw (nodeLabel h) ind, add') ∧
      (∀ y ∈ add', y ∈ graphNodes h g) ∧ ∀ y, y ∈ add' ↔ y ∈ a') ∧
    ((¬ ∀ q ∈ depths 0 T, q.1 < fuel) → treeStrRec h fuel n ind add = .error .recursionError) := by
  cases fuel with
  | zero =>
    refine ⟨fun q => ?_, fun _ => rfl⟩
    cases T
    exact absurd (q _ (by simp [depths]; exact .inl rfl)) (by simp)
  | succ fuel =>
    have hch : nodeChildren h n = .ok (Verif.kids h n) := by
      simp only [nodeChildren, nodeGraph, hown n hn, bind, Except.bind]
      exact getChildren_eq r (getNode_self r hn)
    cases s with
    | star hx sF =>
      cases sF
      refine ⟨fun _ => ⟨add, ?_, hadd, heq⟩, fun c => absurd (by simp [depths, depthsAll]) c⟩
      rw [treeStrRec, memNode_eq r hn hadd, if_pos (by simp only [inList, decide_eq_true_eq]; exact (heq n).2 hx)]
      simp [draw, drawAll, String.append_assoc]
    | leaf hx hk sF =>
      cases sF
      refine ⟨fun _ => ⟨add, ?_, hadd, heq⟩, fun c => absurd (by simp [depths, depthsAll]) c⟩
      rw [treeStrRec, memNode_eq r hn hadd, if_neg (by simp only [inList, decide_eq_true_eq]; exact fun c => hx ((heq n).1 c)), hch, hk]
      simp [draw, drawAll, bind, Except.bind, pure, Except.pure]
    | @expand _ _ _ _ _ S _ hx hk sS sF =>
      cases sF
      have := treeFold_stack r hown sS fuel 1 n ind (nodeLabel h n ++ "\n") add 0 (Verif.kids h n).length (kids_closed r n hn) hn hadd
        (by simp) (by intro y; simp [heq])
      simp only at this
      have e : (∀ q ∈ depths 0 (.mk n false S), q.1 < fuel + 1) ↔ ∀ q ∈ depthsAll 1 S, q.1 < 1 + fuel := by
        simp only [depths, List.mem_cons, forall_eq_or_imp, Nat.add_comm fuel 1]
        constructor
        · exact fun q => q.2
        · exact fun q => ⟨by omega, q⟩
      rw [e]
      constructor
      · intro hs
        rw [if_pos hs] at this
        obtain ⟨add', j, q1, q2, q3, q4, q5, q6⟩ := this
        refine ⟨add', ?_, q2, ?_⟩
        · rw [treeStrRec, memNode_eq r hn hadd, if_neg (by simp only [inList, decide_eq_true_eq]; exact fun c => hx ((heq n).1 c)), hch]
          show (List.foldlM (m := Except PyErr) _ _ _ >>= fun (r : String × List NRef × Nat) => _) = _
          rw [q1]
          simp [draw, bind, Except.bind]
        · intro y
          rw [← q3 y]
          simp only [List.mem_append, List.mem_singleton]
          constructor
          · exact .inl
          · rintro (c | rfl)
            · exact c
            · exact q4 hk
      · intro hs
        rw [if_neg hs] at this
        rw [treeStrRec, memNode_eq r hn hadd, if_neg (by simp only [inList, decide_eq_true_eq]; exact fun c => hx ((heq n).1 c)), hch]
        show (List.foldlM (m := Except PyErr) _ _ _ >>= fun (r : String × List NRef × Nat) => _) = _
        rw [this]
        rfl

theorem Drawing.uncons {next : Nat → List Nat} {a : List Nat} {x : Nat} {xs : List Nat} {F : List Outline} {a' : List Nat}
    (s : Drawing next a (x :: xs) F a') : ∃ T F' b, F = T :: F' ∧ Drawing next a [x] [T] b ∧ Drawing next b xs F' a' := by
  cases s with
  | star hx sF => exact ⟨_, _, _, rfl, .star hx (.nil _), sF⟩
  | leaf hx hn sF => exact ⟨_, _, _, rfl, .leaf hx hn (.nil _), sF⟩
  | expand hx hn sS sF => exact ⟨_, _, _, rfl, .expand hx hn sS (.nil _), sF⟩

/-- The loop over the roots. -/
theorem treeStrings_sketch {h : Heap} (r : Reachable h) {g : GRef} (hown : ∀ n ∈ graphNodes h g, (h.node n).graph = some g) (lim : Nat)
    {rs : List NRef} : ∀ {a : List NRef} {F : List Outline} {a' : List NRef} {add : List NRef}, Drawing (Verif.kids h) a rs F a' →
    (∀ y ∈ rs, y ∈ graphNodes h g) → (∀ y ∈ add, y ∈ graphNodes h g) → (∀ y, y ∈ add ↔ y ∈ a) →
    ((∀ q ∈ depthsAll 0 F, q.1 < lim) → treeStrings lim h rs add = .ok (F.map (draw (nodeLabel h) ""))) ∧
    ((¬ ∀ q ∈ depthsAll 0 F, q.1 < lim) → treeStrings lim h rs add = .error .recursionError) := by
  induction rs with
  | nil =>
    intro a F a' add s _ _ _
    cases s
    exact ⟨fun _ => rfl, fun c => absurd (by simp [depthsAll]) c⟩
  | cons x rs ih =>
    intro a F a' add s hrs hadd heq
    obtain ⟨T, F', b, rfl, s1, s2⟩ := s.uncons
    have k := treeStrRec_sketch r hown s1 lim "" (hrs x (by simp)) hadd heq
    have e : (∀ q ∈ depthsAll 0 (T :: F'), q.1 < lim) ↔ (∀ q ∈ depths 0 T, q.1 < lim) ∧ ∀ q ∈ depthsAll 0 F', q.1 < lim := by
      simp only [depthsAll, List.mem_append]
      exact ⟨fun q => ⟨fun f hf => q f (.inl hf), fun f hf => q f (.inr hf)⟩, fun q f hf => hf.elim (q.1 f) (q.2 f)⟩
    rw [e]
    by_cases c1 : ∀ q ∈ depths 0 T, q.1 < lim
    · obtain ⟨add', q1, q2, q3⟩ := k.1 c1
      have k2 := ih (add := add') s2 (fun y hy => hrs y (by simp [hy])) q2 q3
      constructor
      · intro c
        rw [treeStrings, q1]
        simp only [bind, Except.bind]
        rw [k2.1 c.2]
        rfl
      · intro c
        rw [treeStrings, q1]
        simp only [bind, Except.bind]
        rw [k2.2 fun c2 => c ⟨c1, c2⟩]
    · refine ⟨fun c => absurd c.1 c1, fun _ => ?_⟩
      rw [treeStrings, k.2 c1]
      rfl

/-- Every find of the search is drawn at its depth. -/
theorem Trace.drawn {next : Nat → List Nat} {V todo : List Nat} {p k : Nat} {t : List (Find Nat)} (tr : Trace next V p k todo t) :
    ∀ {a : List Nat} {F : List Outline} {a' : List Nat}, (∀ x, x ∈ a ↔ x ∈ V ∧ next x ≠ []) → Drawing next a todo F a' →
      ∀ f ∈ t, (f.depth, f.node) ∈ depthsAll k F := by
  induction tr with
  | nil => intro a F a' _ _; simp
  | skip hx _ ih =>
    intro a F a' ha s f hf
    obtain ⟨T, F', b, rfl, s1, s2⟩ := s.uncons
    simp only [depthsAll, List.mem_append]
    right
    cases s1 with
    | star _ s => cases s; exact ih ha s2 f hf
    | leaf _ _ s => cases s; exact ih ha s2 f hf
    | expand hxa hn => exact absurd ((ha _).2 ⟨hx, hn⟩) hxa
  | @visit V p x k xs sub rest hx t1 t2 ih1 ih2 =>
    intro a F a' ha s f hf
    obtain ⟨F0, b0, s0, c0, -⟩ := (Pre.visit hx t1.pre (.nil _)).sketch a ha
    obtain ⟨T, F', b, rfl, s1, s2⟩ := s.uncons
    obtain ⟨rfl, rfl⟩ := s1.unique s0
    have hb : ∀ y, y ∈ b ↔ y ∈ V ++ x :: sub.map (·.node) ∧ next y ≠ [] := by simpa using c0
    simp only [depthsAll, List.mem_append]
    rcases List.mem_append.1 hf with hf | hf
    · left
      cases s1 with
      | star hxa => exact absurd ((ha x).1 hxa).1 hx
      | leaf hxa hn s =>
        rw [hn] at t1
        cases t1
        obtain rfl := List.mem_singleton.1 hf
        simp [depths]
      | expand hxa hn sS s =>
        simp only [depths, List.mem_cons]
        rcases List.mem_cons.1 hf with rfl | hf
        · exact .inl rfl
        · right
          refine ih1 (a := a ++ [x]) ?_ sS f hf
          intro y
          simp only [List.mem_append, List.mem_singleton, ha]
          constructor
          · rintro (⟨q, q'⟩ | rfl)
            · exact ⟨.inl q, q'⟩
            · exact ⟨.inr rfl, hn⟩
          · rintro ⟨q | rfl, q'⟩
            · exact .inl ⟨q, q'⟩
            · exact .inr rfl
    · right
      exact ih2 hb s2 f hf

/-- In a finite closed set a depth-first search ends. -/
theorem Pre.total {next : Nat → List Nat} {U : List Nat} (hU : ∀ y ∈ U, ∀ z ∈ next y, z ∈ U) :
    ∀ (k : Nat) (V todo : List Nat), (U.filter fun y => decide (y ∉ V)).length ≤ k → (∀ y ∈ todo, y ∈ U) → ∃ out, Pre next V todo out := by
  intro k
  induction k with
  | zero =>
    intro V todo hk ht
    induction todo with
    | nil => exact ⟨[], .nil V⟩
    | cons x xs ih =>
      obtain ⟨out, p⟩ := ih fun y hy => ht y (by simp [hy])
      refine ⟨out, .skip ?_ p⟩
      refine Classical.byContradiction fun hx => ?_
      have := filter_notin_length (ht x (by simp)) hx
      omega
  | succ k ih =>
    intro V todo hk ht
    induction todo generalizing V with
    | nil => exact ⟨[], .nil V⟩
    | cons x xs ihl =>
      by_cases hx : x ∈ V
      · obtain ⟨out, p⟩ := ihl V hk fun y hy => ht y (by simp [hy])
        exact ⟨out, .skip hx p⟩
      · have := filter_notin_length (ht x (by simp)) hx
        obtain ⟨sub, p⟩ := ih (V ++ [x]) (next x) (by omega) (hU x (ht x (by simp)))
        have m := filter_notin_mono (U := U) (V := V) (W := V ++ x :: sub) (fun y hy => by simp [hy])
        obtain ⟨rest, q⟩ := ihl (V ++ x :: sub) (by omega) fun y hy => ht y (by simp [hy])
        exact ⟨_, .visit hx p q⟩

/-- The roots are nodes that might have been. -/
theorem rootsLoop_subset {h : Heap} {lim : Nat} {g : GRef} {todo : List NRef} :
    ∀ {P R : List NRef}, rootsLoop lim h g todo P = .ok R → ∀ y ∈ R, y ∈ P := by
  induction todo with
  | nil =>
    intro P R e
    obtain rfl := Except.ok.inj e
    exact fun _ h => h
  | cons n todo ih =>
    intro P R e y hy
    rw [rootsLoop] at e
    by_cases hm : memNode h n P
    · rw [if_pos hm] at e
      cases hd : getDescendants lim h g (.node n) with
      | error x => rw [hd] at e; cases e
      | ok ds =>
        rw [hd] at e
        have h1 := ih e y hy
        have key : ∀ (ds P : List NRef), y ∈ ds.foldl (fun p d => if memNode h d p then removeFirst h d p else p) P → y ∈ P := by
          intro ds
          induction ds with
          | nil => exact fun _ h => h
          | cons d ds ihd =>
            intro P hP
            have h2 := ihd _ hP
            by_cases hc : memNode h d P
            · simp only [hc, if_true] at h2
              exact List.mem_of_mem_eraseP h2
            · simpa [hc] using h2
        exact key ds P h1
    · rw [if_neg hm] at e
      exact ih e y hy

end Verif
