import Verif.Lemmas.Trace
import Verif.Props.Traverse
import Verif.Props.Objects
/-!
# What the distance dictionary of the descendants is, exactly

**C115.** `get_descendants(distance=True)` of a graph, and both `get_descendants` and `get_ancestors` of objects without a depth limit.
-/
namespace Verif
section
variable {α : Type} {next : α → List α}

/-- The finds of a search are determined. -/
theorem Trace.unique {V : List α} {p : α} {k : Nat} {todo : List α} {t t' : List (Find α)} (h : Trace next V p k todo t)
    (h' : Trace next V p k todo t') : t = t' := by
  induction h generalizing t' with
  | nil => cases h'; rfl
  | skip hx _ ih =>
    cases h' with
    | skip _ h' => exact ih h'
    | visit hn => exact absurd hx hn
  | visit hx _ _ ih1 ih2 =>
    cases h' with
    | skip hn => exact absurd hn hx
    | visit _ a b =>
      have := ih1 a
      subst this
      rw [ih2 b]

/-- `d` is the dictionary for the finds `t` of a search from `x`: its keys are 1, 2, 3, and so on without gaps; under 1 it lists all that
was found one step away; under `k ≥ 2` not all that was found `k` steps away, but only the last family of it. -/
structure Chart [DecidableEq α] (next : α → List α) (x : α) (t : List (Find α)) (d : Dict Nat (List α)) : Prop where
  keys : ∃ n, dkeys d = List.range' 1 n
  one : dget d 1 = if next x = [] then none else some (foundAt t 1)
  more : ∀ k, 2 ≤ k → dget d k = lastFamily t k

variable [DecidableEq α]

/-- **C115**: for objects: the list and the dictionary are those of one and the same depth-first search. -/
theorem C115_objects {obj : α} {lim : Nat} {l : List α} {d : Dict Nat (List α)} (hl : objRelatives next lim obj none = .ok l)
    (hd : objRelativesByDistance next lim obj none = .ok d) :
    ∃ t, Trace next [obj] obj 1 (next obj) t ∧ l = t.map (·.node) ∧ Chart next obj t d := by
  unfold objRelatives at hl
  unfold objRelativesByDistance at hd
  cases hq : objTraverse next lim obj [] none with
  | error e => rw [hq] at hl; cases hl
  | ok q =>
    rw [hq] at hl hd
    cases hl; cases hd
    obtain ⟨t, a, b, -, c⟩ := objTraverse_trace hq
    exact ⟨t, by simpa using a, b, c.keys, c.one, c.more⟩

/-- **C115**: what is found is in the dictionary exactly if it was found one step away or belongs to the last family of its depth, and it
is listed under its depth, once, and nowhere else. -/
theorem C115_listed {obj : α} {t : List (Find α)} {d : Dict Nat (List α)} (tr : Trace next [obj] obj 1 (next obj) t) (c : Chart next obj t d)
    {f : Find α} (hf : f ∈ t) :
    (∀ k l, dget d k = some l → f.node ∈ l → k = f.depth) ∧
      ((∃ k l, dget d k = some l ∧ f.node ∈ l) ↔
        f.depth = 1 ∨ ∀ u ∈ (t.filter fun u => decide (u.depth = f.depth)).getLast?, f.via = u.via) ∧
      ∀ k l, dget d k = some l → l.Nodup := by
  have nd := tr.pre.nodup
  have same : ∀ u ∈ t, u.node = f.node → u = f := fun u hu e => (List.inj_on_of_nodup_map nd) hu hf e
  have key : ∀ k l, dget d k = some l → l = foundAt t k ∧ k = 1 ∨ 2 ≤ k ∧ lastFamily t k = some l := by
    intro k l hk
    by_cases h2 : 2 ≤ k
    · exact .inr ⟨h2, by rw [← c.more k h2, hk]⟩
    · obtain ⟨n, hn⟩ := c.keys
      have hm : k ∈ dkeys d := List.mem_map.2 ⟨_, mem_of_dget hk, rfl⟩
      rw [hn, List.mem_range'_1] at hm
      have : k = 1 := by omega
      subst this
      rw [c.one] at hk
      split at hk
      · cases hk
      · exact .inl ⟨(Option.some.inj hk).symm, rfl⟩
  have fam : ∀ k l, lastFamily t k = some l → ∃ u ∈ (t.filter fun u => decide (u.depth = k)).getLast?,
      l = (t.filter fun v => decide (v.depth = k ∧ v.via = u.via)).map (·.node) := by
    intro k l h
    simp only [lastFamily, Option.map_eq_some_iff] at h
    obtain ⟨u, hu, e⟩ := h
    exact ⟨u, hu, e.symm⟩
  have onlyd : ∀ k l, dget d k = some l → f.node ∈ l → k = f.depth := by
    intro k l hk hm
    rcases key k l hk with ⟨rfl, rfl⟩ | ⟨h2, hl⟩
    · obtain ⟨u, hu, e⟩ := List.mem_map.1 hm
      obtain ⟨hu, hd⟩ := List.mem_filter.1 hu
      rw [same u hu e] at hd
      simpa using (of_decide_eq_true hd).symm
    · obtain ⟨u, -, rfl⟩ := fam k l hl
      obtain ⟨v, hv, e⟩ := List.mem_map.1 hm
      obtain ⟨hv, hd⟩ := List.mem_filter.1 hv
      rw [same v hv e] at hd
      exact (of_decide_eq_true hd).1.symm
  refine ⟨onlyd, ⟨?_, ?_⟩, ?_⟩
  · rintro ⟨k, l, hk, hm⟩
    have e := onlyd k l hk hm
    subst e
    rcases key _ l hk with ⟨-, h1⟩ | ⟨h2, hl⟩
    · exact .inl h1
    · refine .inr fun u hu => ?_
      obtain ⟨u', hu', rfl⟩ := fam _ l hl
      rw [Option.mem_def] at hu hu'
      rw [hu] at hu'
      cases hu'
      obtain ⟨v, hv, e⟩ := List.mem_map.1 hm
      obtain ⟨hv, hd⟩ := List.mem_filter.1 hv
      rw [same v hv e] at hd
      exact (of_decide_eq_true hd).2
  · intro h
    by_cases h1 : f.depth = 1
    · refine ⟨1, foundAt t 1, ?_, List.mem_map.2 ⟨f, List.mem_filter.2 ⟨hf, by simp [h1]⟩, rfl⟩⟩
      rw [c.one, if_neg]
      intro e
      rw [e] at tr
      cases tr
      cases hf
    · have h2 : 2 ≤ f.depth := by
        rcases tr.via f hf with h | h <;> omega
      cases hL : lastFamily t f.depth with
      | none => exact absurd rfl (lastFamily_none.1 hL f hf)
      | some l =>
        refine ⟨f.depth, l, by rw [c.more _ h2, hL], ?_⟩
        obtain ⟨u, hu, rfl⟩ := fam _ l hL
        have := (h.resolve_left h1) u hu
        exact List.mem_map.2 ⟨f, List.mem_filter.2 ⟨hf, by simp [this]⟩, rfl⟩
  · intro k l hk
    rcases key k l hk with ⟨rfl, rfl⟩ | ⟨h2, hl⟩
    · exact List.Nodup.sublist (List.filter_sublist.map _) nd
    · obtain ⟨u, -, rfl⟩ := fam k l hl
      exact List.Nodup.sublist (List.filter_sublist.map _) nd

end

/-- **C115**: for the nodes of a graph. -/
theorem C115_nodes {h : Heap} (r : Reachable h) {g : GRef} {a : NodeArg} {x : NRef} (ha : getNode h g a = .ok x) {lim : Nat}
    {l : List NRef} {d : Dict Nat (List NRef)} (hl : getDescendants lim h g a = .ok l) (hd : getDescendantsDict lim h g a = .ok d) :
    ∃ children : NRef → List NRef, (∀ n ∈ graphNodes h g, getChildren h g (.node n) = .ok (children n)) ∧
      ∃ t, Trace children [x] x 1 (children x) t ∧ l = t.map (·.node) ∧ Chart children x t d := by
  have hx := getNode_mem r ha
  have e : descendantsRec h g lim a [] = objTraverse (kids h) lim x [] none := by
    rw [descendantsRec_arg r ha, descendantsRec_eq r lim hx (by simp)]
  refine ⟨kids h, fun n hn => getChildren_eq r (getNode_self r hn), C115_objects (lim := lim) ?_ ?_⟩
  · simpa only [getDescendants, e, objRelatives] using hl
  · simpa only [getDescendantsDict, e, objRelativesByDistance] using hd

/-- The finds in the sample: 4 is found twice, but entered from 2 only; the dictionary forgets nothing here. -/
example : Trace sample [0] 0 1 (sample 0)
    [⟨1, 1, 0⟩, ⟨2, 2, 1⟩, ⟨4, 3, 2⟩, ⟨3, 1, 0⟩] := by
  refine .visit (sub := [⟨2, 2, 1⟩, ⟨4, 3, 2⟩]) (rest := [⟨3, 1, 0⟩]) (by decide) ?_ ?_
  · refine .visit (sub := [⟨4, 3, 2⟩]) (rest := []) (by decide) ?_ (.skip (by decide) (.nil _ _ _))
    exact .skip (by decide) (.visit (sub := []) (rest := []) (by decide) (.nil _ _ _) (.nil _ _ _))
  · refine .visit (sub := []) (rest := []) (by decide) ?_ (.nil _ _ _)
    exact .skip (by decide) (.skip (by decide) (.nil _ _ _))

example : objRelatives sample 5 0 none = .ok [1, 2, 4, 3] ∧
    objRelativesByDistance sample 5 0 none = .ok [(1, [1, 3]), (2, [2]), (3, [4])] := by decide +kernel

/-- 0 has the children 1 and 2, each of which has a child of its own. -/
def prong : Nat → List Nat
  | 0 => [1, 2]
  | 1 => [3]
  | 2 => [4]
  | _ => []

theorem prong_trace : Trace prong [0] 0 1 (prong 0) [⟨1, 1, 0⟩, ⟨3, 2, 1⟩, ⟨2, 1, 0⟩, ⟨4, 2, 2⟩] := by
  refine .visit (sub := [⟨3, 2, 1⟩]) (rest := [⟨2, 1, 0⟩, ⟨4, 2, 2⟩]) (by decide) ?_ ?_
  · exact .visit (sub := []) (rest := []) (by decide) (.nil _ _ _) (.nil _ _ _)
  · refine .visit (sub := [⟨4, 2, 2⟩]) (rest := []) (by decide) ?_ (.nil _ _ _)
    exact .visit (sub := []) (rest := []) (by decide) (.nil _ _ _) (.nil _ _ _)

/-- 3 is forgotten: it is not of the last family at depth 2. -/
example : objRelatives prong 5 0 none = .ok [1, 3, 2, 4] ∧ objRelativesByDistance prong 5 0 none = .ok [(1, [1, 2]), (2, [4])] ∧
    lastFamily [(⟨1, 1, 0⟩ : Find Nat), ⟨3, 2, 1⟩, ⟨2, 1, 0⟩, ⟨4, 2, 2⟩] 2 = some [4] := by decide +kernel

theorem prong_chart : Chart prong 0 [⟨1, 1, 0⟩, ⟨3, 2, 1⟩, ⟨2, 1, 0⟩, ⟨4, 2, 2⟩] [(1, [1, 2]), (2, [4])] := by
  obtain ⟨t, tr, -, c⟩ := C115_objects (next := prong) (obj := 0) (lim := 5) (l := [1, 3, 2, 4]) (d := [(1, [1, 2]), (2, [4])])
    (by decide +kernel) (by decide +kernel)
  rwa [tr.unique prong_trace] at c

example := C115_listed prong_trace prong_chart (f := ⟨3, 2, 1⟩) (by decide)

example := C115_nodes demo_reachable (g := 0) (a := .key (.str "a")) (x := 0) (lim := 10) (l := [1, 2]) (d := [(1, [1]), (2, [2])])
  (by decide +kernel) (by decide +kernel) (by decide +kernel)

end Verif
