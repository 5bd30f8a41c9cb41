import Verif.Lemmas.OneParent
import Verif.Lemmas.DepthLimit
import Verif.Lemmas.TraverseTop
/-!
# C29, C30: traversing arbitrary objects

`next` is `__children__` for `get_descendants` and `__parents__` for `get_ancestors`; `lim` is the number of stack frames.
-/
namespace Verif

variable {α : Type} [DecidableEq α] {next : α → List α}

/-- **C29.** On a finite object graph (`U` lists the objects) with enough stack frames, the traversal returns, without
repetition and in depth-first preorder, exactly the objects other than `obj` that can be reached. -/
theorem C29_reachability {U : List α} (hU : ∀ y ∈ U, ∀ z ∈ next y, z ∈ U) {obj : α} (ho : obj ∈ U) {lim : Nat}
    (hl : U.length ≤ lim) :
    ∃ l, objRelatives next lim obj none = .ok l ∧ l.Nodup ∧ Pre next [obj] (next obj) l ∧
      ∀ y, y ∈ l ↔ y ≠ obj ∧ Reach next obj y := by
  obtain ⟨sub, d, he, ht⟩ := objTraverse_ok (V := []) hU lim ho (by simp) (Nat.le_trans (List.length_filter_le _ _) hl)
  have hp : Pre next [obj] (next obj) sub := by simpa using ht.pre
  exact ⟨sub, by simp [objRelatives, he, Except.map], hp.nodup, hp, fun y => hp.mem_iff⟩

/-- **C29**: with fewer stack frames the answer is the same or the call raises. -/
theorem C29_any_stack {U : List α} (hU : ∀ y ∈ U, ∀ z ∈ next y, z ∈ U) {obj : α} (ho : obj ∈ U) {lim : Nat} {l : List α}
    (hl : objRelatives next lim obj none = .ok l) :
    l.Nodup ∧ Pre next [obj] (next obj) l ∧ ∀ y, y ∈ l ↔ y ≠ obj ∧ Reach next obj y := by
  obtain ⟨l', h1, h2⟩ := C29_reachability hU ho (Nat.le_max_right lim U.length)
  unfold objRelatives at hl h1
  cases hq : objTraverse next lim obj [] none with
  | error e => rw [hq] at hl; cases hl
  | ok q =>
    rw [hq] at hl
    rw [objTraverse_mono (Nat.le_max_left lim U.length) hq] at h1
    cases hl; cases h1
    exact h2

/-- The numbers below 6 with a cycle `0 → 1 → 2 → 0`, a self-loop on 3 and a repeated child. -/
def sample : Nat → List Nat
  | 0 => [1, 3]
  | 1 => [2, 2]
  | 2 => [0, 4]
  | 3 => [3, 4]
  | _ => []

example : (∀ y ∈ [0, 1, 2, 3, 4], ∀ z ∈ sample y, z ∈ [0, 1, 2, 3, 4]) ∧
    objRelatives sample 5 0 none = .ok [1, 2, 4, 3] := by decide +kernel

/-! ## Depth limits -/

omit [DecidableEq α] in
theorem Walk.last {k : Nat} {x y : α} (w : Walk (Step next) k x y) :
    (k = 0 ∧ y = x) ∨ ∃ z, y ∈ next z ∧ ∃ j, k = j + 1 ∧ Walk (Step next) j x z := by
  induction w with
  | zero => exact .inl ⟨rfl, rfl⟩
  | step h1 w ih =>
    rcases ih with ⟨h0, e⟩ | ⟨z, hz, j, e, wj⟩
    · exact .inr ⟨_, e ▸ h1, 0, by simp [h0], .zero _⟩
    · exact .inr ⟨z, hz, j + 1, by simp [e], .step h1 wj⟩

/-- `a → b, a → c, b → c, c → d, d → e`. -/
def deep : Nat → List Nat
  | 0 => [1, 2]
  | 1 => [2]
  | 2 => [3]
  | 3 => [4]
  | _ => []

/-- **C30 fails** at `max_depth=3`: the object 4 is at distance 3 from 0 and is left out, because 2 was entered at depth 2
before it was seen as a child of 0. -/
theorem C30_missed : Walk (Step deep) 3 0 4 ∧ ∀ lim, 4 ≤ lim → objRelatives deep lim 0 (some 3) = .ok [1, 2, 3] := by
  refine ⟨.step (y := 2) (by simp [Step, deep]) (.step (y := 3) (by simp [Step, deep]) (.step (y := 4) (by simp [Step, deep]) (.zero _))), ?_⟩
  intro lim hl
  have h4 : objTraverse deep 4 0 [] (some 3) = .ok ([1, 2, 3], [(1, [1]), (2, [2]), (3, [3])], [0, 1, 2]) := by decide +kernel
  simp [objRelatives, objTraverse_mono hl h4, Except.map]

/-- **C30**, what holds for every object graph, finite or not, and every limit `d`: with `d + 1` stack frames the call
returns; the result has no repetition and contains only objects other than `obj` at distance at most `d`; it contains *all*
of those at distance at most two; and if the object graph is graded (some level goes up by one with every child: trees, for
example) all of them. Missing: completeness beyond distance two in other graphs (`C30_missed`). -/
theorem C30_limited_partial (obj : α) (d : Int) {lim : Nat} (hl : max d 0 < (lim : Int)) :
    ∃ l, objRelatives next lim obj (some d) = .ok l ∧ l.Nodup ∧
      (∀ y ∈ l, y ≠ obj ∧ ∃ k : Nat, 1 ≤ k ∧ (k : Int) ≤ d ∧ Walk (Step next) k obj y) ∧
      (∀ y k, y ≠ obj → Walk (Step next) k obj y → (k : Int) ≤ d → k ≤ 2 → y ∈ l) ∧
      ((∃ level, Graded next level) → ∀ y k, y ≠ obj → Walk (Step next) k obj y → (k : Int) ≤ d → y ∈ l) := by
  have key : ∀ level, ∃ l d' t, objTraverse next lim obj [] (some d) = .ok (l, d', t) ∧ LimOk next level [] obj d l d' t :=
    fun level => objTraverse_lim (V := []) (r := d) level lim (by simp) (by omega) (by omega)
  obtain ⟨l, d', t, he, L⟩ := key fun _ => 0
  refine ⟨l, by simp [objRelatives, he, Except.map], L.nodup, fun y hy => ⟨(L.disj y hy).2, L.sound y hy⟩, ?_, ?_⟩
  · intro y k hy w hk h2
    have kid : ∀ e ∈ t, ∀ c ∈ next e, c ≠ obj → c ∈ l := by
      intro e he c hc hne
      rcases L.kidsOf e he (by simp) c hc with h | h | h
      · cases h
      · exact absurd h hne
      · exact h
    cases w with
    | zero => exact absurd rfl hy
    | step h1 w =>
      cases w with
      | zero => exact kid obj (L.self (by omega)) y h1 hy
      | step h2 w =>
        cases w with
        | zero => exact kid _ (L.two (by omega) _ h1) y h2 hy
        | step h3 w => omega
  · rintro ⟨level, hg⟩ y k hy w hk
    obtain ⟨l2, d2, t2, he2, L2⟩ := key level
    rw [he] at he2
    cases he2
    have lev : ∀ {k x y}, Walk (Step next) k x y → level y = level x + k := by
      intro k x y w
      induction w with
      | zero => simp
      | step h1 _ ih => rw [ih, hg _ _ h1]; push_cast; omega
    have entered : ∀ {k x y}, Walk (Step next) k x y → x ∈ t → level y < level obj + d → y ∈ t := by
      intro k x y w
      induction w with
      | zero => intro h _; exact h
      | step h1 w ih =>
        intro hx hy
        refine ih (L2.graded hg _ hx (by simp) ?_ _ h1) hy
        have := lev w
        have := hg _ _ h1
        omega
    have last : ∃ z, y ∈ next z ∧ ∃ j, k = j + 1 ∧ Walk (Step next) j obj z := by
      rcases w.last with ⟨-, e⟩ | h
      · exact absurd e hy
      · exact h
    obtain ⟨z, hz, j, rfl, wj⟩ := last
    have hzt : z ∈ t := entered wj (L.self (by omega)) (by have := lev wj; push_cast at hk; omega)
    rcases L.kidsOf z hzt (by simp) y hz with h | h | h
    · cases h
    · exact absurd h hy
    · exact h

/-- **C30**, limits up to 2: exactly the objects within the distance; nothing for a limit of 0 or less. -/
theorem C30_two_partial (obj : α) (d : Int) (hd : d ≤ 2) {lim : Nat} (hl : 2 < lim) :
    ∃ l, objRelatives next lim obj (some d) = .ok l ∧ l.Nodup ∧
      ∀ y, y ∈ l ↔ y ≠ obj ∧ ∃ k : Nat, (k : Int) ≤ d ∧ Walk (Step next) k obj y := by
  obtain ⟨l, h1, h2, h3, h4, -⟩ := C30_limited_partial (next := next) obj d (lim := lim) (by omega)
  refine ⟨l, h1, h2, fun y => ⟨fun hy => ?_, ?_⟩⟩
  · obtain ⟨hne, k, -, hk, w⟩ := h3 y hy
    exact ⟨hne, k, hk, w⟩
  · rintro ⟨hne, k, hk, w⟩
    exact h4 y k hne w hk (by omega)

/-- **C30**, distances: an object listed at distance `k` by `get_descendants(obj, distance=True, max_depth=d)` has a walk of
exactly `k` steps from `obj`, and is in the list of the `distance=False` call, so within the limit. Missing: completeness. -/
theorem C30_distances_partial (obj : α) (d : Int) {lim : Nat} (hl : max d 0 < (lim : Int)) :
    ∃ dict l, objRelativesByDistance next lim obj (some d) = .ok dict ∧ objRelatives next lim obj (some d) = .ok l ∧
      (dkeys dict).Nodup ∧ ∀ k ys, (k, ys) ∈ dict → 1 ≤ k ∧ ∀ y ∈ ys, Walk (Step next) k obj y ∧ y ∈ l := by
  obtain ⟨l, d', t, he, L⟩ : ∃ l d' t, objTraverse next lim obj [] (some d) = .ok (l, d', t) ∧
      LimOk next (fun _ => 0) [] obj d l d' t := objTraverse_lim (V := []) (r := d) _ lim (by simp) (by omega) (by omega)
  exact ⟨d', l, by simp [objRelativesByDistance, he, Except.map], by simp [objRelatives, he, Except.map], L.dict.nodup,
    fun k ys hk => ⟨L.dict.pos k ys hk, fun y hy => ⟨L.dict.walk k ys y hk hy, L.dict.sub k ys y hk hy⟩⟩⟩

/-- **C30**: entry `k` of `get_descendants(obj, distance=True, max_depth=d)` lists children of a single object only, whatever the
limit. So of two objects exactly `k` steps away that are not children of one object, at least one is listed at no distance. -/
theorem C30_one_partial {obj : α} {d : Option Int} {lim : Nat} {dict : Dict Nat (List α)}
    (hd : objRelativesByDistance next lim obj d = .ok dict) :
    ∀ k ys, (k, ys) ∈ dict → ∃ p, Walk (Step next) (k - 1) obj p ∧ ∀ y ∈ ys, y ∈ next p := by
  unfold objRelativesByDistance at hd
  cases hq : objTraverse next lim obj [] d with
  | error e => rw [hq] at hd; cases hd
  | ok q =>
    rw [hq] at hd
    cases hd
    exact fun k ys hk => (objTraverse_one lim (t := q.2.2) hq k ys hk).2

/-- In the infinite binary tree, of the four grandchildren two are listed. -/
example : objRelativesByDistance (fun n : Nat => [2 * n + 1, 2 * n + 2]) 3 0 (some 2) = .ok [(1, [1, 2]), (2, [5, 6])] := by
  decide +kernel

/-- An infinite binary tree: the children of `n` are `2n+1` and `2n+2`. -/
example : objRelatives (fun n : Nat => [2 * n + 1, 2 * n + 2]) 3 0 (some 2) = .ok [1, 3, 4, 2, 5, 6] ∧
    objRelatives sample 3 0 (some 1) = .ok [1, 3] ∧ objRelatives sample 1 0 (some (-1)) = .ok [] := by decide +kernel

/-- The infinite path `0 → 1 → …` is graded. -/
example : Graded (fun n : Nat => [n + 1]) (fun n => (n : Int)) := by simp [Graded]

end Verif
