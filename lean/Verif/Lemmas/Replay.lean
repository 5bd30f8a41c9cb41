import Verif.Lemmas.Quiet
/-!
# Styling once more
-/
namespace Verif
open Palette W
variable {C : Type}

/-- `w` has the shape of `h`, and no style is shared. -/
structure Okay (h : Heap) (w : World C) : Prop where
  body : SameBody h w.heap
  fine : Fine w
  apart : Apart w.heap

theorem Okay.quiet {h : Heap} {w v : World C} (O : Okay h w) (q : Quiet w v) : Okay h v :=
  ⟨O.body.trans q.shape, q.fine, q.apart O.apart⟩

/-- After a call that succeeded, it will succeed again, also after other changes of styles. -/
def Replays (h : Heap) (x : W C Unit) : Prop :=
  ∀ w w' v, Okay h w → x w = (.ok (), w') → Quiet w' v → ∃ v', x v = (.ok (), v')

/-- What the call makes of the styles of nodes and edges when it succeeds. -/
def Paints (h : Heap) (x : W C Unit) (Φ : NRef → Option (NodeStyle C) → Option (NodeStyle C))
    (Ψ : ERef → Option (EdgeStyle C) → Option (EdgeStyle C)) : Prop :=
  ∀ w w', Okay h w → x w = (.ok (), w') →
    (∀ n, nodeLook w' n = Φ n (nodeLook w n)) ∧ ∀ e, edgeLook w' e = Ψ e (edgeLook w e)

theorem seq_ok {x : W C Unit} {y : W C Unit} {w w' : World C} (h : (x >>= fun _ => y) w = (.ok (), w')) :
    ∃ w1, x w = (.ok (), w1) ∧ y w1 = (.ok (), w') := by
  rw [bind_apply] at h
  cases hx : x w with
  | mk o w1 =>
    rw [hx] at h
    cases o with
    | error e => simp at h
    | ok a => exact ⟨w1, rfl, h⟩

theorem seq_run {x : W C Unit} {y : W C Unit} {w w1 : World C} {r : Except PyErr Unit × World C}
    (h : x w = (.ok (), w1)) (h' : y w1 = r) : (x >>= fun _ => y) w = r := by
  rw [bind_apply, h, ← h']

theorem Silent.quiet {x : W C Unit} (s : Silent x) {w w' : World C} {o : Except PyErr Unit} (F : Fine w) (h : x w = (o, w')) : Quiet w w' := by
  have := s w F
  rw [h] at this
  exact this

theorem Replays.seq {h : Heap} {x y : W C Unit} (sx : Silent x) (sy : Silent y) (rx : Replays h x) (ry : Replays h y) :
    Replays h (x >>= fun _ => y) := by
  intro w w' v O hok q
  obtain ⟨w1, h1, h2⟩ := seq_ok hok
  have q1 := sx.quiet O.fine h1
  have q2 := sy.quiet q1.fine h2
  obtain ⟨v1, e1⟩ := rx w w1 v O h1 (q2.trans q)
  obtain ⟨v2, e2⟩ := ry w1 w' v1 (O.quiet q1) h2 (q.trans (sx.quiet q.fine e1))
  exact ⟨v2, seq_run e1 e2⟩

theorem Paints.seq {h : Heap} {x y : W C Unit} {Φ Ψ Φ' Ψ'} (sx : Silent x) (px : Paints h x Φ Ψ) (py : Paints h y Φ' Ψ') :
    Paints h (x >>= fun _ => y) (fun n o => Φ' n (Φ n o)) (fun e o => Ψ' e (Ψ e o)) := by
  intro w w' O hok
  obtain ⟨w1, h1, h2⟩ := seq_ok hok
  obtain ⟨a, b⟩ := px w w1 O h1
  obtain ⟨c, d⟩ := py w1 w' (O.quiet (sx.quiet O.fine h1)) h2
  exact ⟨fun n => by rw [c, a], fun e => by rw [d, b]⟩

theorem Replays.nothing {h : Heap} : Replays h (pure () : W C Unit) := fun _ _ v _ _ _ => ⟨v, rfl⟩

theorem Paints.nothing {h : Heap} : Paints h (pure () : W C Unit) (fun _ o => o) (fun _ o => o) := by
  intro w w' O hok
  cases hok
  exact ⟨fun _ => rfl, fun _ => rfl⟩

theorem Replays.forEach {α : Type} {h : Heap} {f : α → W C Unit} {l : List α} (sf : ∀ a, Silent (f a)) (rf : ∀ a ∈ l, Replays h (f a)) :
    Replays h (Verif.forEach f l) := by
  induction l with
  | nil => exact .nothing
  | cons a l ih =>
    exact .seq (sf a) (.forEach sf l) (rf a (by simp)) (ih fun x hx => rf x (by simp [hx]))

theorem Paints.forEach {α : Type} {h : Heap} {f : α → W C Unit} (l : List α) {Φ : α → NRef → Option (NodeStyle C) → Option (NodeStyle C)}
    {Ψ : α → ERef → Option (EdgeStyle C) → Option (EdgeStyle C)} (sf : ∀ a, Silent (f a)) (rf : ∀ a, Paints h (f a) (Φ a) (Ψ a)) :
    Paints h (Verif.forEach f l) (fun n o => l.foldl (fun o a => Φ a n o) o) (fun n o => l.foldl (fun o a => Ψ a n o) o) := by
  induction l with
  | nil => exact .nothing
  | cons a l ih => exact .seq (sf a) (rf a) ih

/-- Asking for something that only depends on the shape. -/
theorem ask_cases {α : Type} {h : Heap} {q : World C → Except PyErr α} {Q : Except PyErr α} (hq : ∀ w : World C, SameBody h w.heap → q w = Q)
    (f : α → W C Unit) {w : World C} (O : SameBody h w.heap) :
    (W.ask q >>= f) w = match (generalizing := false) Q with
      | .ok a => f a w
      | .error e => (.error e, w) := by
  rw [bind_apply, ask_apply, hq w O]
  cases Q <;> rfl

theorem Replays.ask {α : Type} {h : Heap} {q : World C → Except PyErr α} {Q : Except PyErr α} (hq : ∀ w : World C, SameBody h w.heap → q w = Q)
    {f : α → W C Unit} (sf : ∀ a, Silent (f a)) (hf : ∀ a, Q = .ok a → Replays h (f a)) : Replays h (W.ask q >>= f) := by
  intro w w' v O hok qu
  rw [ask_cases hq f O.body] at hok
  have qw : Quiet w w' := by
    cases hQ : Q with
    | error e => rw [hQ] at hok; cases hok
    | ok a => rw [hQ] at hok; exact (sf a).quiet O.fine hok
  rw [ask_cases hq f (O.body.trans (qw.shape.trans qu.shape))]
  cases hQ : Q with
  | error e => rw [hQ] at hok; cases hok
  | ok a => rw [hQ] at hok; exact hf a hQ w w' v O hok qu

theorem Paints.ask {α : Type} {h : Heap} {q : World C → Except PyErr α} {Q : Except PyErr α} (hq : ∀ w : World C, SameBody h w.heap → q w = Q)
    {f : α → W C Unit} {Φ Ψ} (hf : ∀ a, Q = .ok a → Paints h (f a) Φ Ψ) : Paints h (W.ask q >>= f) Φ Ψ := by
  intro w w' O hok
  rw [ask_cases hq f O.body] at hok
  cases hQ : Q with
  | error e => rw [hQ] at hok; cases hok
  | ok a => rw [hQ] at hok; exact hf a hQ w w' O hok

/-! ## The single steps -/

section
variable [Palette C] {h : Heap} {g : GRef}

/-- `f` at `n`, and nothing elsewhere. -/
def onlyAt {β : Type} (n : Nat) (f : β → β) (m : Nat) (o : β) : β := if m = n then f o else o

/-- `f` at the node or edge that was found. -/
def atResult {β : Type} (Q : Except PyErr Nat) (f : β → β) (m : Nat) (o : β) : β :=
  match Q with
  | .ok n => onlyAt n f m o
  | .error _ => o

omit [Palette C] in
@[simp] theorem onlyAt_self {β : Type} (n : Nat) (f : β → β) (o : β) : onlyAt n f n o = f o := by simp [onlyAt]

omit [Palette C] in
theorem onlyAt_ne {β : Type} {n m : Nat} (h : m ≠ n) (f : β → β) (o : β) : onlyAt n f m o = o := by simp [onlyAt, h]

/-- Styles may be overwritten. -/
def Permit (h : Heap) (g : GRef) : Prop := (h.graph g).overwrite = some true

theorem complementNode_effect {l : List (NodeItem C)} {n : NRef} :
    Paints h (complementNode l n) (onlyAt n (Option.map (·.complement l))) (fun _ o => o) := by
  intro w w' O hok
  simp only [complementNode, W.bind_apply, look_apply] at hok
  cases hs : (w.heap.node n).style with
  | none => rw [hs] at hok; cases hok
  | some s =>
    rw [hs] at hok
    simp only [W.setNs, W.bind_apply, look_apply, Prod.mk.injEq, true_and] at hok
    subst hok
    refine ⟨fun m => ?_, fun e => rfl⟩
    by_cases hm : m = n
    · subst hm; simp [nodeLook, hs]
    · rw [onlyAt_ne hm]
      simp only [nodeLook]
      cases hs' : (w.heap.node m).style with
      | none => rfl
      | some t =>
        have : t ≠ s := fun e => hm (O.apart.node _ _ _ hs' (by rw [hs, e]))
        simp [upd_ne _ _ this]

theorem complementNode_replays {l : List (NodeItem C)} {n : NRef} : Replays h (complementNode l n) := by
  intro w w' v O hok q
  have h1 : nodeLook w n ≠ none := by
    simp only [complementNode, W.bind_apply, look_apply] at hok
    intro h1
    rw [nodeLook_none] at h1
    rw [h1] at hok; cases hok
  have h2 := q.nodes n ((Silent.complementNode l n).quiet O.fine hok |>.nodes n h1)
  rw [ne_eq, nodeLook_none] at h2
  obtain ⟨s, hs⟩ := Option.ne_none_iff_exists'.1 h2
  refine ⟨{ v with ns := upd v.ns s ((v.ns s).complement l) }, ?_⟩
  simp [complementNode, hs, W.setNs]

omit [Palette C]
theorem complementEdge_effect {l : List (EdgeItemStyle C)} {n : ERef} :
    Paints h (complementEdge l n) (fun _ o => o) (onlyAt n (Option.map (·.complement l))) := by
  intro w w' O hok
  simp only [complementEdge, W.bind_apply, look_apply] at hok
  cases hs : (w.heap.edge n).style with
  | none => rw [hs] at hok; cases hok
  | some s =>
    rw [hs] at hok
    simp only [W.setEs, W.bind_apply, look_apply, Prod.mk.injEq, true_and] at hok
    subst hok
    refine ⟨fun e => rfl, fun m => ?_⟩
    by_cases hm : m = n
    · subst hm; simp [edgeLook, hs]
    · rw [onlyAt_ne hm]
      simp only [edgeLook]
      cases hs' : (w.heap.edge m).style with
      | none => rfl
      | some t =>
        have : t ≠ s := fun e => hm (O.apart.edge _ _ _ hs' (by rw [hs, e]))
        simp [upd_ne _ _ this]

theorem complementEdge_replays {l : List (EdgeItemStyle C)} {n : ERef} : Replays h (complementEdge l n) := by
  intro w w' v O hok q
  have h1 : edgeLook w n ≠ none := by
    simp only [complementEdge, W.bind_apply, look_apply] at hok
    intro h1
    rw [edgeLook_none] at h1
    rw [h1] at hok; cases hok
  have h2 := q.edges n ((Silent.complementEdge l n).quiet O.fine hok |>.edges n h1)
  rw [ne_eq, edgeLook_none] at h2
  obtain ⟨s, hs⟩ := Option.ne_none_iff_exists'.1 h2
  refine ⟨{ v with es := upd v.es s ((v.es s).complement l) }, ?_⟩
  simp [complementEdge, hs, W.setEs]

theorem assignNode_effect {n : NRef} {st : NodeStyle C} :
    Paints h (assignNode n st) (onlyAt n fun _ => some st) (fun _ o => o) := by
  intro w w' O hok
  rcases checkOverwrite_cases w.heap (w.heap.node n).style (w.heap.node n).graph with hn | ⟨e, he⟩
  · obtain ⟨w1, h1, B⟩ := assignNode_run O.fine hn st
    rw [h1] at hok; cases hok
    refine ⟨fun m => ?_, fun e => by rw [B.edges]⟩
    rw [B.nodes]
    by_cases hm : m = n
    · subst hm; simp
    · rw [upd_ne _ _ hm, onlyAt_ne hm]
  · rw [assignNode_blocked st he] at hok; cases hok

theorem assignEdge_effect {n : ERef} {st : EdgeStyle C} :
    Paints h (assignEdge n st) (fun _ o => o) (onlyAt n fun _ => some st) := by
  intro w w' O hok
  rcases checkOverwrite_cases w.heap (w.heap.edge n).style (w.heap.edge n).graph with hn | ⟨e, he⟩
  · obtain ⟨w1, h1, B⟩ := assignEdge_run O.fine hn st
    rw [h1] at hok; cases hok
    refine ⟨fun e => by rw [B.nodes], fun m => ?_⟩
    rw [B.edges]
    by_cases hm : m = n
    · subst hm; simp
    · rw [upd_ne _ _ hm, onlyAt_ne hm]
  · rw [assignEdge_blocked st he] at hok; cases hok

section
variable (hp : Permit h g)
include hp

theorem free_node {n : NRef} (hn : (h.node n).graph = some g) {w : World C} (S : SameBody h w.heap) :
    Free w.heap (w.heap.node n).style (w.heap.node n).graph := .inr ⟨g, by rw [← S.nodeGraph]; exact hn, by rw [← S.graph]; exact hp⟩

theorem free_edge {n : ERef} (hn : (h.edge n).graph = some g) {w : World C} (S : SameBody h w.heap) :
    Free w.heap (w.heap.edge n).style (w.heap.edge n).graph := .inr ⟨g, by rw [← S.edgeGraph]; exact hn, by rw [← S.graph]; exact hp⟩

theorem assignNode_replays {n : NRef} (hn : (h.node n).graph = some g) {st : NodeStyle C} (hst : st.Complete) : Replays h (assignNode n st) := by
  intro w w' v O hok q
  have q' := (Silent.assignNode n hst).quiet O.fine hok
  obtain ⟨v', h1, -⟩ := assignNode_run q.fine (free_node hp hn ((O.quiet q').quiet q).body) st
  exact ⟨v', h1⟩

theorem assignEdge_replays {n : ERef} (hn : (h.edge n).graph = some g) {st : EdgeStyle C} (hst : st.textAuto ≠ none) : Replays h (assignEdge n st) := by
  intro w w' v O hok q
  have q' := (Silent.assignEdge n hst).quiet O.fine hok
  obtain ⟨v', h1, -⟩ := assignEdge_run q.fine (free_edge hp hn ((O.quiet q').quiet q).body) st
  exact ⟨v', h1⟩

omit hp in
theorem lift_check {st : Heap → Option SRef} {gr : Heap → Option GRef} {w : World C} (hf : Free w.heap (st w.heap) (gr w.heap)) :
    (W.lift (fun h => checkOverwrite (st h) (gr h) h) : W C Unit) w = (.ok (), w) := by
  simp only [W.lift, checkOverwrite_free hf]

omit hp in
theorem lift_check_ok {st : Heap → Option SRef} {gr : Heap → Option GRef} {w w' : World C}
    (h : (W.lift (fun h => checkOverwrite (st h) (gr h) h) : W C Unit) w = (.ok (), w')) : w' = w := by
  rcases checkOverwrite_cases w.heap (st w.heap) (gr w.heap) with hn | ⟨e, he⟩
  · rw [lift_check hn] at h; cases h; rfl
  · simp only [W.lift, he] at h; cases h

theorem checkNode_replays {n : NRef} (hn : (h.node n).graph = some g) :
    Replays h (W.lift (do let o ← M.look (fun h => h.node n); checkOverwrite o.style o.graph) : W C Unit) := by
  intro w w' v O hok q
  have q' := (Silent.checkNode n).quiet O.fine hok
  exact ⟨v, lift_check (st := fun h => (h.node n).style) (gr := fun h => (h.node n).graph) (free_node hp hn ((O.quiet q').quiet q).body)⟩

theorem checkEdge_replays {n : ERef} (hn : (h.edge n).graph = some g) :
    Replays h (W.lift (do let o ← M.look (fun h => h.edge n); checkOverwrite o.style o.graph) : W C Unit) := by
  intro w w' v O hok q
  have q' := (Silent.checkEdge n).quiet O.fine hok
  exact ⟨v, lift_check (st := fun h => (h.edge n).style) (gr := fun h => (h.edge n).graph) (free_edge hp hn ((O.quiet q').quiet q).body)⟩
end

theorem checkNode_effect {n : NRef} :
    Paints h (W.lift (do let o ← M.look (fun h => h.node n); checkOverwrite o.style o.graph) : W C Unit) (fun _ o => o) (fun _ o => o) := by
  intro w w' O hok
  cases lift_check_ok (st := fun h => (h.node n).style) (gr := fun h => (h.node n).graph) hok
  exact ⟨fun _ => rfl, fun _ => rfl⟩

theorem checkEdge_effect {n : ERef} :
    Paints h (W.lift (do let o ← M.look (fun h => h.edge n); checkOverwrite o.style o.graph) : W C Unit) (fun _ o => o) (fun _ o => o) := by
  intro w w' O hok
  cases lift_check_ok (st := fun h => (h.edge n).style) (gr := fun h => (h.edge n).graph) hok
  exact ⟨fun _ => rfl, fun _ => rfl⟩

end
end Verif
