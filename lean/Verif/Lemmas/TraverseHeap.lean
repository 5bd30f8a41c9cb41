import Verif.Lemmas.AncestorsPure
import Verif.Lemmas.Neighbours
import Verif.Model.Traverse
import Verif.Props.Order
/-!
# The traversals of `BasicGraph` are the plain traversals over `kids` and `pars`
-/
namespace Verif

section Fold
variable {σ α ε : Type}

theorem foldlM_inv {f : σ → α → Except ε σ} {P : σ → Prop} {l : List α}
    (hp : ∀ s a s', P s → a ∈ l → f s a = .ok s' → P s') {s s' : σ} (hs : P s) (h : l.foldlM f s = .ok s') : P s' := by
  induction l generalizing s with
  | nil => simp only [List.foldlM_nil, pure, Except.pure, Except.ok.injEq] at h; exact h ▸ hs
  | cons a l ih =>
    rw [List.foldlM_cons] at h
    cases hf : f s a with
    | error e => rw [hf] at h; cases h
    | ok t =>
      rw [hf] at h
      exact ih (fun s b s' h1 h2 => hp s b s' h1 (by simp [h2])) (hp s a t hs (by simp) hf) h

theorem foldlM_congr_inv {f g : σ → α → Except ε σ} {P : σ → Prop} {l : List α} (he : ∀ s, P s → ∀ a ∈ l, f s a = g s a)
    (hp : ∀ s a s', P s → a ∈ l → g s a = .ok s' → P s') {s : σ} (hs : P s) : l.foldlM f s = l.foldlM g s := by
  induction l generalizing s with
  | nil => rfl
  | cons a l ih =>
    rw [List.foldlM_cons, List.foldlM_cons, he s hs a (by simp)]
    cases hg : g s a with
    | error e => rfl
    | ok t =>
      exact ih (fun s h1 b h2 => he s h1 b (by simp [h2])) (fun s b s' h1 h2 => hp s b s' h1 (by simp [h2]))
        (hp s a t hs (by simp) hg)

end Fold

section Subset
variable {α : Type} [DecidableEq α] {next : α → List α}

theorem addDirect_subset {U : List α} {x : α} {acc : List α × Dict Nat (List α)} (hx : x ∈ U) (ha : ∀ y ∈ acc.1, y ∈ U) :
    ∀ y ∈ (addDirect inList x acc).1, y ∈ U := by
  intro y hy
  rcases (addDirect_fst.1 y).1 hy with rfl | hy
  · exact hx
  · exact ha y hy

theorem absorb_subset {U : List α} {sub : List α} {e : Dict Nat (List α)} {acc : List α × Dict Nat (List α)}
    (hs : ∀ y ∈ sub, y ∈ U) (ha : ∀ y ∈ acc.1, y ∈ U) : ∀ y ∈ (absorb inList sub e acc).1, y ∈ U := by
  induction sub generalizing acc with
  | nil => exact ha
  | cons z sub ih =>
    unfold absorb
    rw [List.foldl_cons]
    split
    · exact ih (fun y hy => hs y (by simp [hy])) ha
    · refine ih (fun y hy => hs y (by simp [hy])) ?_
      intro y hy
      rcases List.mem_append.1 hy with hy | hy
      · exact ha y hy
      · rw [List.mem_singleton.1 hy]; exact hs z (by simp)

theorem absorb_congr {U : List α} {mem : α → List α → Bool} (hmem : ∀ x l, x ∈ U → (∀ y ∈ l, y ∈ U) → mem x l = inList x l)
    {sub : List α} {e : Dict Nat (List α)} {acc : List α × Dict Nat (List α)} (hs : ∀ y ∈ sub, y ∈ U) (ha : ∀ y ∈ acc.1, y ∈ U) :
    absorb mem sub e acc = absorb inList sub e acc := by
  induction sub generalizing acc with
  | nil => rfl
  | cons z sub ih =>
    unfold absorb
    rw [List.foldl_cons, List.foldl_cons, hmem z acc.1 (hs z (by simp)) ha]
    have hz : ∀ y ∈ acc.1 ++ [z], y ∈ U := by
      intro y hy
      rcases List.mem_append.1 hy with hy | hy
      · exact ha y hy
      · rw [List.mem_singleton.1 hy]; exact hs z (by simp)
    split
    · exact ih (fun y hy => hs y (by simp [hy])) ha
    · exact ih (fun y hy => hs y (by simp [hy])) hz

theorem objTraverse_subset {U : List α} (hU : ∀ y ∈ U, ∀ z ∈ next y, z ∈ U) (fuel : Nat) {x : α} {V : List α} {md : Option Int}
    {r : List α × Dict Nat (List α) × List α} (hx : x ∈ U) (hV : ∀ y ∈ V, y ∈ U) (h : objTraverse next fuel x V md = .ok r) :
    (∀ y ∈ r.1, y ∈ U) ∧ ∀ y ∈ r.2.2, y ∈ U := by
  induction fuel generalizing x V md r with
  | zero => cases h
  | succ fuel ih =>
    have hVx : ∀ y ∈ V ++ [x], y ∈ U := by
      intro y hy
      rcases List.mem_append.1 hy with hy | hy
      · exact hV y hy
      · rw [List.mem_singleton.1 hy]; exact hx
    unfold objTraverse at h
    split at h
    · cases h; exact ⟨by simp, hV⟩
    · split at h
      · cases h; exact ⟨by simp, hVx⟩
      · refine foldlM_inv (P := fun s => (∀ y ∈ s.1, y ∈ U) ∧ ∀ y ∈ s.2.2, y ∈ U) ?_ ⟨by simp, hVx⟩ h
        intro s c s' hs hc hf
        split at hf
        · cases hf; exact hs
        · cases hr : objTraverse next fuel c s.2.2 (md.map (· - 1)) with
          | error e => rw [hr] at hf; cases hf
          | ok r =>
            rw [hr] at hf
            cases hf
            obtain ⟨h1, h2⟩ := ih (hU x hx c hc) hs.2 hr
            exact ⟨absorb_subset h1 (addDirect_subset (hU x hx c hc) hs.1), h2⟩

theorem ancTraverse_subset {U : List α} (hU : ∀ y ∈ U, ∀ z ∈ next y, z ∈ U) (fuel : Nat) {x : α} {V : List α}
    {r : List α × Dict Nat (List α) × List α} (hx : x ∈ U) (hV : ∀ y ∈ V, y ∈ U) (h : ancTraverse next fuel x V = .ok r) :
    (∀ y ∈ r.1, y ∈ U) ∧ ∀ y ∈ r.2.2, y ∈ U := by
  induction fuel generalizing x V r with
  | zero => cases h
  | succ fuel ih =>
    have hVx : ∀ y ∈ V ++ [x], y ∈ U := by
      intro y hy
      rcases List.mem_append.1 hy with hy | hy
      · exact hV y hy
      · rw [List.mem_singleton.1 hy]; exact hx
    unfold ancTraverse at h
    split at h
    · cases h; exact ⟨by simp, hVx⟩
    · refine foldlM_inv (P := fun s => (∀ y ∈ s.1, y ∈ U) ∧ ∀ y ∈ s.2.2, y ∈ U) ?_ ⟨by simp, hVx⟩ h
      intro s c s' hs hc hf
      have ha := addDirect_subset (acc := (s.1, s.2.1)) (hU x hx c hc) hs.1
      simp only at hf
      split at hf
      · cases hf; exact ⟨ha, hs.2⟩
      · cases hr : ancTraverse next fuel c s.2.2 with
        | error e => rw [hr] at hf; cases hf
        | ok r =>
          rw [hr] at hf
          cases hf
          obtain ⟨h1, h2⟩ := ih (hU x hx c hc) hs.2 hr
          exact ⟨absorb_subset h1 ha, h2⟩

end Subset

/-! ## The bridge -/

theorem memNode_eq {h : Heap} (r : Reachable h) {g : GRef} {x : NRef} {l : List NRef} (hx : x ∈ graphNodes h g)
    (hl : ∀ y ∈ l, y ∈ graphNodes h g) : memNode h x l = inList x l := by
  unfold memNode
  rw [Bool.eq_iff_iff, List.any_eq_true, decide_eq_true_eq]
  constructor
  · rintro ⟨y, hy, hxy⟩
    simp only [Bool.or_eq_true, decide_eq_true_eq] at hxy
    rcases hxy with rfl | hxy
    · exact hy
    · rw [(C09_eq_identity r (hl y hy) hx).1 hxy] at hy; exact hy
  · intro hx; exact ⟨x, hx, by simp⟩

theorem kids_closed {h : Heap} (r : Reachable h) {g : GRef} : ∀ y ∈ graphNodes h g, ∀ z ∈ kids h y, z ∈ graphNodes h g :=
  fun _ hy _ hz => (arrow_mem r ((mem_kids r hy).1 hz)).2

theorem pars_closed {h : Heap} (r : Reachable h) {g : GRef} : ∀ y ∈ graphNodes h g, ∀ z ∈ pars h y, z ∈ graphNodes h g :=
  fun _ hy _ hz => (arrow_mem r ((mem_pars r hy).1 hz)).1

theorem descendantsRec_eq {h : Heap} (r : Reachable h) {g : GRef} (fuel : Nat) {x : NRef} {V : List NRef}
    (hx : x ∈ graphNodes h g) (hV : ∀ y ∈ V, y ∈ graphNodes h g) :
    descendantsRec h g fuel (.node x) V = objTraverse (kids h) fuel x V none := by
  induction fuel generalizing x V with
  | zero => rfl
  | succ fuel ih =>
    have hself := getNode_self r hx
    unfold descendantsRec objTraverse
    simp only [hself, getChildren_eq r hself, Option.any_none, Bool.false_eq_true, if_false, Option.map_none, bind, Except.bind]
    split
    · rfl
    · refine foldlM_congr_inv (P := fun s => (∀ y ∈ s.1, y ∈ graphNodes h g) ∧ ∀ y ∈ s.2.2, y ∈ graphNodes h g) ?_ ?_ ?_
      · intro s hs c hc
        have hcU := kids_closed r x hx c hc
        rw [memNode_eq r hcU hs.2]
        simp only [inList, decide_eq_true_eq]
        split
        · rfl
        · rw [ih hcU hs.2]
          have e1 : addDirect (memNode h) c (s.1, s.2.1) = addDirect inList c (s.1, s.2.1) := by
            unfold addDirect; rw [memNode_eq r hcU hs.1]
          cases hr : objTraverse (kids h) fuel c s.2.2 none with
          | error e => rfl
          | ok q =>
            have := objTraverse_subset (kids_closed r) fuel hcU hs.2 hr
            simp only [e1]
            rw [absorb_congr (fun x l => memNode_eq r) this.1 (addDirect_subset (acc := (s.1, s.2.1)) hcU hs.1)]
      · intro s c s' hs hc hf
        have hcU := kids_closed r x hx c hc
        split at hf
        · cases hf; exact hs
        · cases hr : objTraverse (kids h) fuel c s.2.2 none with
          | error e => rw [hr] at hf; cases hf
          | ok q =>
            rw [hr] at hf
            cases hf
            have := objTraverse_subset (kids_closed r) fuel hcU hs.2 hr
            exact ⟨absorb_subset this.1 (addDirect_subset (acc := (s.1, s.2.1)) hcU hs.1), this.2⟩
      · refine ⟨by simp, ?_⟩
        intro y hy
        rcases List.mem_append.1 hy with hy | hy
        · exact hV y hy
        · rw [List.mem_singleton.1 hy]; exact hx

theorem ancestorsRec_eq {h : Heap} (r : Reachable h) {g : GRef} (fuel : Nat) {x : NRef} {V : List NRef}
    (hx : x ∈ graphNodes h g) (hV : ∀ y ∈ V, y ∈ graphNodes h g) :
    ancestorsRec h g fuel (.node x) V = ancTraverse (pars h) fuel x V := by
  induction fuel generalizing x V with
  | zero => rfl
  | succ fuel ih =>
    have hself := getNode_self r hx
    unfold ancestorsRec ancTraverse
    simp only [hself, getParents_eq r hself, bind, Except.bind]
    split
    · rfl
    · refine foldlM_congr_inv (P := fun s => (∀ y ∈ s.1, y ∈ graphNodes h g) ∧ ∀ y ∈ s.2.2, y ∈ graphNodes h g) ?_ ?_ ?_
      · intro s hs c hc
        have hcU := pars_closed r x hx c hc
        have e1 : addDirect (memNode h) c (s.1, s.2.1) = addDirect inList c (s.1, s.2.1) := by
          unfold addDirect; rw [memNode_eq r hcU hs.1]
        rw [memNode_eq r hcU hs.2, e1]
        simp only [decide_eq_true_eq]
        split
        · rfl
        · rw [ih hcU hs.2]
          cases hr : ancTraverse (pars h) fuel c s.2.2 with
          | error e => rfl
          | ok q =>
            have := ancTraverse_subset (pars_closed r) fuel hcU hs.2 hr
            simp only
            rw [absorb_congr (fun x l => memNode_eq r) this.1 (addDirect_subset (acc := (s.1, s.2.1)) hcU hs.1)]
      · intro s c s' hs hc hf
        have hcU := pars_closed r x hx c hc
        have ha := addDirect_subset (acc := (s.1, s.2.1)) hcU hs.1
        split at hf
        · cases hf; exact ⟨ha, hs.2⟩
        · cases hr : ancTraverse (pars h) fuel c s.2.2 with
          | error e => rw [hr] at hf; cases hf
          | ok q =>
            rw [hr] at hf
            cases hf
            have := ancTraverse_subset (pars_closed r) fuel hcU hs.2 hr
            exact ⟨absorb_subset this.1 ha, this.2⟩
      · refine ⟨by simp, ?_⟩
        intro y hy
        rcases List.mem_append.1 hy with hy | hy
        · exact hV y hy
        · rw [List.mem_singleton.1 hy]; exact hx

/-- A call with any argument is the call with the node it denotes. -/
theorem descendantsRec_arg {h : Heap} (r : Reachable h) {g : GRef} {a : NodeArg} {x : NRef} (ha : getNode h g a = .ok x)
    (fuel : Nat) (V : List NRef) : descendantsRec h g fuel a V = descendantsRec h g fuel (.node x) V := by
  cases fuel with
  | zero => rfl
  | succ fuel => unfold descendantsRec; rw [ha, getNode_self r (getNode_mem r ha)]

theorem ancestorsRec_arg {h : Heap} (r : Reachable h) {g : GRef} {a : NodeArg} {x : NRef} (ha : getNode h g a = .ok x)
    (fuel : Nat) (V : List NRef) : ancestorsRec h g fuel a V = ancestorsRec h g fuel (.node x) V := by
  cases fuel with
  | zero => rfl
  | succ fuel => unfold ancestorsRec; rw [ha, getNode_self r (getNode_mem r ha)]

end Verif
