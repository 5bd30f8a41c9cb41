import Verif.Model.FromObject
import Verif.Props.Objects
import Verif.Props.Append
/-!
# C54: `from_object`
-/
namespace Verif
open M
variable {α : Type} [DecidableEq α]

/-- **C54**, violated: for every object whose `__hash__()` returns an `int`, as Python demands of it, `from_object` raises
`UnboundLocalError`, whatever the relatives of the object and the limits; the new graph it has made by then is empty. -/
theorem C54_violated (T : ObjType α) (lim : Nat) (obj : α) (s o w : Bool) (dep hei : Option Int) (h : Heap) {i : Int}
    (hi : T.hash obj = .int i) :
    fromObject T lim obj s o w dep hei h = (.error .unboundLocalError, (graphInit s o w h).2) ∧
      graphNodes (graphInit s o w h).2 h.nG = [] := by
  constructor
  · unfold fromObject
    rw [M.bind_apply]
    have : graphInit s o w h = (.ok h.nG, (graphInit s o w h).2) := rfl
    rw [this]
    simp only [M.bind_apply, addNode, hi]
    rfl
  · simp [graphNodes, graphInit, M.newGraph, dvals]

/-! ## Objects whose `__hash__()` returns a string -/

/-- What one link does to the picture of the graph. -/
def Draft.link (T : ObjType α) (d : Draft) (q : α × α × α) : Draft :=
  (d.addKey (T.hash q.1) { label := .str (T.str q.1) }).connect (T.hash q.2.1) (T.hash q.2.2) {}

theorem Draft.mem_addKey {d : Draft} {x : String} {a : NodeArgs} {k : Key} :
    k ∈ (d.addKey (.str x) a).names ↔ k ∈ d.names ∨ k = .str x := by
  rw [Draft.addKey_str]
  by_cases hx : Key.str x ∈ d.names
  · have : (d.addNode x a).names = d.names := by
      unfold Draft.addNode
      rw [if_pos hx]
      simp only [Draft.names, List.map_map]
      apply List.map_congr_left
      intro v _
      simp only [Function.comp]
      split <;> rfl
    rw [this]
    exact ⟨.inl, fun h => h.elim id fun h => h ▸ hx⟩
  · rw [Draft.addNode_new hx]
    simp [Draft.names]

theorem Draft.mem_connect {d : Draft} {s t : Key} {a : EdgeArgs} {i : EdgeId} :
    i ∈ (d.connect s t a).ids ↔ i ∈ d.ids ∨ i = (s, t, a.raw) := by
  by_cases hx : (s, t, a.raw) ∈ d.ids
  · have : (d.connect s t a).ids = d.ids := by
      unfold Draft.connect
      rw [if_pos hx]
      simp only [Draft.ids, List.map_map]
      apply List.map_congr_left
      intro v _
      simp only [Function.comp]
      split <;> rfl
    rw [this]
    exact ⟨.inl, fun h => h.elim id fun h => h ▸ hx⟩
  · unfold Draft.connect
    rw [if_neg hx]
    simp [Draft.ids]

theorem Draft.addKey_ids (d : Draft) (x : Key) (a : NodeArgs) : (d.addKey x a).ids = d.ids := by
  unfold Draft.addKey
  split
  · unfold Draft.addNode; split <;> rfl
  · rfl

/-- The labels are those of the objects. -/
def Draft.Labelled (T : ObjType α) (d : Draft) : Prop := ∀ v ∈ d.nodes, ∀ x, v.name = T.hash x → v.label = .str (T.str x)

omit [DecidableEq α] in
theorem Draft.Labelled.addKey {T : ObjType α} {d : Draft} (L : d.Labelled T) (hinj : ∀ x y, T.hash x = T.hash y → x = y) (x : α)
    {s : String} (hs : T.hash x = .str s) : (d.addKey (T.hash x) { label := .str (T.str x) }).Labelled T := by
  rw [hs, Draft.addKey_str]
  intro v hv y hy
  unfold Draft.addNode at hv
  split at hv
  · obtain ⟨u, hu, rfl⟩ := List.mem_map.1 hv
    split at hy
    · next h1 =>
      rw [if_pos h1]
      obtain rfl := hinj x y (hs.trans (h1.symm.trans hy))
      rfl
    · next h1 =>
      rw [if_neg h1]
      exact L u hu y hy
  · rcases List.mem_append.1 hv with hv | hv
    · exact L v hv y hy
    · obtain rfl := List.mem_singleton.1 hv
      obtain rfl := hinj x y (hs.trans hy)
      rfl

theorem Draft.connect_nodes (d : Draft) (s t : Key) (a : EdgeArgs) : (d.connect s t a).nodes = d.nodes := by
  unfold Draft.connect; split <;> rfl

/-- The loops as one list of links. -/
def objLinks (T : ObjType α) (g : GRef) : List (α × α × α) → M Unit
  | [] => pure ()
  | (x, p, c) :: l => do
    objLink T g x p c
    objLinks T g l

omit [DecidableEq α] in
theorem objLinks_append (T : ObjType α) (g : GRef) (l l' : List (α × α × α)) (h : Heap) :
    objLinks T g (l ++ l') h = (objLinks T g l >>= fun _ => objLinks T g l') h := by
  induction l generalizing h with
  | nil => rfl
  | cons q l ih =>
    obtain ⟨x, p, c⟩ := q
    simp only [List.cons_append, objLinks, M.bind_apply]
    cases objLink T g x p c h with
    | mk r h1 =>
      cases r with
      | error e => rfl
      | ok u => simp only [ih, M.bind_apply]

def downLinks (T : ObjType α) (all : List α) (c : α) : List (α × α × α) := ((T.parents c).filter (fun p => decide (p ∈ all))).map fun p => (c, p, c)

def upLinks (T : ObjType α) (all : List α) (p : α) : List (α × α × α) := ((T.children p).filter (fun c => decide (c ∈ all))).map fun c => (p, p, c)

theorem objParents_eq (T : ObjType α) (g : GRef) (all : List α) (c : α) (ps : List α) (h : Heap) :
    objParents T g all c ps h = objLinks T g ((ps.filter (fun p => decide (p ∈ all))).map fun p => (c, p, c)) h := by
  induction ps generalizing h with
  | nil => rfl
  | cons p ps ih =>
    by_cases hp : p ∈ all
    · simp only [objParents, hp, if_true, List.filter_cons, decide_true, List.map_cons, objLinks, M.bind_apply, ih]
    · rw [List.filter_cons, if_neg (by simpa using hp), ← ih]
      simp only [objParents, hp, if_false]

theorem objChildren_eq (T : ObjType α) (g : GRef) (all : List α) (p : α) (cs : List α) (h : Heap) :
    objChildren T g all p cs h = objLinks T g ((cs.filter (fun c => decide (c ∈ all))).map fun c => (p, p, c)) h := by
  induction cs generalizing h with
  | nil => rfl
  | cons c cs ih =>
    by_cases hp : c ∈ all
    · simp only [objChildren, hp, if_true, List.filter_cons, decide_true, List.map_cons, objLinks, M.bind_apply, ih]
    · rw [List.filter_cons, if_neg (by simpa using hp), ← ih]
      simp only [objChildren, hp, if_false]

theorem objDown_eq (T : ObjType α) (g : GRef) (all : List α) (cs : List α) (h : Heap) :
    objDown T g all cs h = objLinks T g (cs.flatMap (downLinks T all)) h := by
  induction cs generalizing h with
  | nil => rfl
  | cons c cs ih =>
    rw [List.flatMap_cons, objLinks_append]
    simp only [objDown, M.bind_apply, objParents_eq, ih, downLinks]

theorem objUp_eq (T : ObjType α) (g : GRef) (all : List α) (ps : List α) (h : Heap) :
    objUp T g all ps h = objLinks T g (ps.flatMap (upLinks T all)) h := by
  induction ps generalizing h with
  | nil => rfl
  | cons p ps ih =>
    rw [List.flatMap_cons, objLinks_append]
    simp only [objUp, M.bind_apply, objChildren_eq, ih, upLinks]

/-- Both ends of every link have been added by then. -/
def LinksFit (T : ObjType α) : List Key → List (α × α × α) → Prop
  | _, [] => True
  | ks, q :: l => (T.hash q.2.1 ∈ ks ∨ T.hash q.2.1 = T.hash q.1) ∧ (T.hash q.2.2 ∈ ks ∨ T.hash q.2.2 = T.hash q.1) ∧
      LinksFit T (ks ++ [T.hash q.1]) l

omit [DecidableEq α] in
theorem LinksFit.mono {T : ObjType α} {l : List (α × α × α)} {ks ks' : List Key} (h : LinksFit T ks l) (hk : ∀ k ∈ ks, k ∈ ks') :
    LinksFit T ks' l := by
  induction l generalizing ks ks' with
  | nil => trivial
  | cons q l ih =>
    refine ⟨h.1.imp (hk _) id, h.2.1.imp (hk _) id, ih h.2.2 fun k hk' => ?_⟩
    rcases List.mem_append.1 hk' with hk' | hk'
    · exact List.mem_append_left _ (hk k hk')
    · exact List.mem_append_right _ hk'

omit [DecidableEq α] in
theorem LinksFit.append {T : ObjType α} {l l' : List (α × α × α)} {ks : List Key} (h : LinksFit T ks l)
    (h' : LinksFit T (ks ++ l.map fun q => T.hash q.1) l') : LinksFit T ks (l ++ l') := by
  induction l generalizing ks with
  | nil => simpa using h'
  | cons q l ih => exact ⟨h.1, h.2.1, ih h.2.2 (by simpa using h')⟩

omit [DecidableEq α] in
/-- A list of links, run one after the other. -/
theorem Drawn.links {T : ObjType α} (hstr : ∀ x, ∃ s, T.hash x = .str s) (hinj : ∀ x y, T.hash x = T.hash y → x = y)
    {h0 : Heap} {g : GRef} (l : List (α × α × α)) {h : Heap} {A : Spec} {d : Draft} (D : Drawn h0 h A g d) (L : d.Labelled T)
    (hl : LinksFit T d.names l) :
    ∃ h' A' d', objLinks T g l h = (.ok (), h') ∧ Drawn h0 h' A' g d' ∧ d'.Labelled T ∧
      (∀ k, k ∈ d'.names ↔ k ∈ d.names ∨ ∃ q ∈ l, k = T.hash q.1) ∧
      (∀ i, i ∈ d'.ids ↔ i ∈ d.ids ∨ ∃ q ∈ l, i = (T.hash q.2.1, T.hash q.2.2, .none)) ∧
      d'.strict = d.strict ∧ d'.ordering = d.ordering := by
  induction l generalizing h A d with
  | nil => exact ⟨h, A, d, rfl, D, L, by simp, by simp, rfl, rfl⟩
  | cons q l ih =>
    obtain ⟨x, p, c⟩ := q
    obtain ⟨s, hs⟩ := hstr x
    obtain ⟨n, h1, A1, e1, D1, -⟩ := D.addNode (x := s) (a := { label := .str (T.str x) }) (p := .warn) (by
      unfold Draft.NodeFits; split
      · exact ⟨by simp, rfl⟩
      · trivial)
    have hn : ∀ k, k ∈ (d.addNode s { label := .str (T.str x) }).names ↔ k ∈ d.names ∨ k = T.hash x := by
      intro k; rw [hs]; exact Draft.mem_addKey
    have L1 : (d.addNode s { label := .str (T.str x) }).Labelled T := by
      have := L.addKey hinj x hs
      rw [hs] at this; exact this
    obtain ⟨e, h2, A2, e2, D2, -⟩ := D1.connect (s := T.hash p) (t := T.hash c) (sa := .key (T.hash p)) (ta := .key (T.hash c)) (a := {}) (p := .warn) rfl rfl
      ⟨(hn _).2 hl.1, (hn _).2 hl.2.1, by
        split
        · exact ⟨by simp, rfl⟩
        · trivial⟩
    obtain ⟨h3, A3, d3, e3, D3, L3, n3, i3, s3, o3⟩ := ih D2 (by
        intro v hv; rw [Draft.connect_nodes] at hv; exact L1 v hv)
      (hl.2.2.mono (by
        intro k hk
        rw [Draft.connect_names, hn]
        rcases List.mem_append.1 hk with hk | hk
        · exact .inl hk
        · exact .inr (List.mem_singleton.1 hk)))
    refine ⟨h3, A3, d3, ?_, D3, L3, ?_, ?_, ?_, ?_⟩
    · simp only [objLinks, objLink, M.bind_apply, hs, e1, e2]
      exact e3
    · intro k
      rw [n3, Draft.connect_names, hn]
      simp only [List.mem_cons, exists_eq_or_imp]
      exact or_assoc
    · intro i
      rw [i3, Draft.mem_connect]
      have : (d.addNode s { label := .str (T.str x) }).ids = d.ids := Draft.addKey_ids d (.str s) _
      rw [this]
      simp only [List.mem_cons, exists_eq_or_imp]
      exact or_assoc
    · rw [s3]; unfold Draft.connect Draft.addNode; split <;> split <;> rfl
    · rw [o3]; unfold Draft.connect Draft.addNode; split <;> split <;> rfl

/-- In `l`, nobody comes before a relative among `obj` and `l` that is neither `obj` nor `seen`. -/
def InOrder (rel : α → List α) (obj : α) (seen : α → Prop) (l : List α) : Prop :=
  ∀ A c B, l = A ++ c :: B → ∀ p ∈ rel c, p ∈ obj :: l → p = obj ∨ p ∈ A ∨ p = c ∨ seen p

/-- The same, and everybody has a relative there. -/
def Ordered (rel : α → List α) (obj : α) (seen : α → Prop) (l : List α) : Prop :=
  InOrder rel obj seen l ∧ ∀ c ∈ l, ∃ p ∈ rel c, p ∈ obj :: l

theorem ordered_down {T : ObjType α} {obj : α} {seen : α → Prop} {l : List α} (O : Ordered T.parents obj seen l) {ks : List Key}
    (hk : T.hash obj ∈ ks) (hseen : ∀ y, seen y → T.hash y ∈ ks) :
    LinksFit T ks (l.flatMap (downLinks T (obj :: l))) := by
  suffices key : ∀ B A, l = A ++ B → ∀ ks, T.hash obj ∈ ks → (∀ y, seen y → T.hash y ∈ ks) → (∀ a ∈ A, T.hash a ∈ ks) → LinksFit T ks (B.flatMap (downLinks T (obj :: l))) from
    key l [] rfl ks hk hseen (by simp)
  intro B
  induction B with
  | nil => intros; trivial
  | cons c B ih =>
    intro A hA ks h1 h3 h2
    rw [List.flatMap_cons]
    refine LinksFit.append ?_ (ih (A ++ [c]) (by simp [hA]) _ (by simp [h1]) (fun y hy => by simp [h3 y hy]) ?_)
    · unfold downLinks
      have hall : ∀ p ∈ (T.parents c).filter (fun p => decide (p ∈ obj :: l)), p = obj ∨ p ∈ A ∨ p = c ∨ seen p := by
        intro p hp
        obtain ⟨a, b⟩ := List.mem_filter.1 hp
        exact O.1 A c B hA p a (of_decide_eq_true b)
      generalize (T.parents c).filter (fun p => decide (p ∈ obj :: l)) = ps at hall
      induction ps generalizing ks with
      | nil => trivial
      | cons p ps ihp =>
        refine ⟨?_, .inr rfl, ihp _ (by simp [h1]) (fun y hy => by simp [h3 y hy]) (fun a ha => by simp [h2 a ha]) fun q hq => hall q (by simp [hq])⟩
        rcases hall p (by simp) with rfl | h | rfl | h
        · exact .inl h1
        · exact .inl (h2 p h)
        · exact .inr rfl
        · exact .inl (h3 p h)
    · intro a ha
      rcases List.mem_append.1 ha with ha | ha
      · exact List.mem_append_left _ (h2 a ha)
      · obtain rfl := List.mem_singleton.1 ha
        obtain ⟨p, hp, hp'⟩ := O.2 a (by simp [hA])
        refine List.mem_append_right _ (List.mem_map.2 ⟨(a, p, a), ?_, rfl⟩)
        exact List.mem_map.2 ⟨p, List.mem_filter.2 ⟨hp, decide_eq_true hp'⟩, rfl⟩

theorem ordered_up {T : ObjType α} {obj : α} {seen : α → Prop} {l : List α} (O : Ordered T.children obj seen l) {ks : List Key}
    (hk : T.hash obj ∈ ks) (hseen : ∀ y, seen y → T.hash y ∈ ks) :
    LinksFit T ks (l.flatMap (upLinks T (obj :: l))) := by
  suffices key : ∀ B A, l = A ++ B → ∀ ks, T.hash obj ∈ ks → (∀ y, seen y → T.hash y ∈ ks) → (∀ a ∈ A, T.hash a ∈ ks) → LinksFit T ks (B.flatMap (upLinks T (obj :: l))) from
    key l [] rfl ks hk hseen (by simp)
  intro B
  induction B with
  | nil => intros; trivial
  | cons c B ih =>
    intro A hA ks h1 h3 h2
    rw [List.flatMap_cons]
    refine LinksFit.append ?_ (ih (A ++ [c]) (by simp [hA]) _ (by simp [h1]) (fun y hy => by simp [h3 y hy]) ?_)
    · unfold upLinks
      have hall : ∀ p ∈ (T.children c).filter (fun p => decide (p ∈ obj :: l)), p = obj ∨ p ∈ A ∨ p = c ∨ seen p := by
        intro p hp
        obtain ⟨a, b⟩ := List.mem_filter.1 hp
        exact O.1 A c B hA p a (of_decide_eq_true b)
      generalize (T.children c).filter (fun p => decide (p ∈ obj :: l)) = ps at hall
      induction ps generalizing ks with
      | nil => trivial
      | cons p ps ihp =>
        refine ⟨.inr rfl, ?_, ihp _ (by simp [h1]) (fun y hy => by simp [h3 y hy]) (fun a ha => by simp [h2 a ha]) fun q hq => hall q (by simp [hq])⟩
        rcases hall p (by simp) with rfl | h | rfl | h
        · exact .inl h1
        · exact .inl (h2 p h)
        · exact .inr rfl
        · exact .inl (h3 p h)
    · intro a ha
      rcases List.mem_append.1 ha with ha | ha
      · exact List.mem_append_left _ (h2 a ha)
      · obtain rfl := List.mem_singleton.1 ha
        obtain ⟨p, hp, hp'⟩ := O.2 a (by simp [hA])
        refine List.mem_append_right _ (List.mem_map.2 ⟨(a, a, p), ?_, rfl⟩)
        exact List.mem_map.2 ⟨p, List.mem_filter.2 ⟨hp, decide_eq_true hp'⟩, rfl⟩

/-- `obj`, or an object that can be reached from it. -/
abbrev AtOrBeyond (next : α → List α) (obj y : α) : Prop := y = obj ∨ Reach next obj y

/-- **C54**, for objects whose `__hash__()` returns a string, a different one for each object. Suppose that `__parents__()` is the
inverse of `__children__()`, that there are finitely many relatives and stack frames enough for them, and that the descendants
are found parents first, and the ancestors children first unless these are descendants too, as in a tree. Then `from_object` returns a new graph with exactly one
node for `obj`, for every descendant and for every ancestor, under its hash and labelled with its text; the edges lead from
parents to children and join exactly the relatives on the same side of `obj`. No other graph is touched.
Missing for the full property: hashes that are numbers, that is Python's (`C54_violated`). -/
theorem C54_strings_partial (T : ObjType α) (hstr : ∀ x, ∃ s, T.hash x = .str s) (hinj : ∀ x y, T.hash x = T.hash y → x = y)
    (hinv : ∀ p c, p ∈ T.parents c ↔ c ∈ T.children p) {U : List α} (hU : ∀ y ∈ U, ∀ z, z ∈ T.children y ∨ z ∈ T.parents y → z ∈ U)
    {obj : α} (hobj : obj ∈ U) {lim : Nat} (hl : U.length ≤ lim)
    (hD : ∀ D, objRelatives T.children lim obj none = .ok D → InOrder T.parents obj (fun _ => False) D)
    (hA : ∀ D An, objRelatives T.children lim obj none = .ok D → objRelatives T.parents lim obj none = .ok An →
      InOrder T.children obj (· ∈ D) An)
    {h : Heap} (r : Reachable h) (s o w : Bool) :
    ∃ h' d, fromObject T lim obj s o w none none h = (.ok h.nG, h') ∧ Reachable h' ∧ Draws h' h.nG d ∧ d.strict = s ∧ d.ordering = o ∧
      d.names.Nodup ∧ (∀ k, k ∈ d.names ↔ ∃ y, k = T.hash y ∧ (AtOrBeyond T.children obj y ∨ AtOrBeyond T.parents obj y)) ∧
      (∀ v ∈ d.nodes, ∀ y, v.name = T.hash y → v.label = .str (T.str y)) ∧
      (∀ i, i ∈ d.ids ↔ ∃ p c, i = (T.hash p, T.hash c, .none) ∧ c ∈ T.children p ∧
        (AtOrBeyond T.children obj p ∧ c ≠ obj ∨ AtOrBeyond T.parents obj c ∧ p ≠ obj)) ∧
      ∀ g', g' < h.nG → Untouched h h' g' := by
  obtain ⟨D, d1, -, -, d3⟩ := C29_reachability (fun y hy z hz => hU y hy z (.inl hz)) hobj hl
  obtain ⟨An, a1, -, -, a3⟩ := C29_reachability (next := T.parents) (fun y hy z hz => hU y hy z (.inr hz)) hobj hl
  have d4 : ∀ y, y ∈ obj :: D ↔ AtOrBeyond T.children obj y := by
    intro y
    rw [List.mem_cons, d3]
    by_cases hy : y = obj <;> simp [AtOrBeyond, hy]
  have a4 : ∀ y, y ∈ obj :: An ↔ AtOrBeyond T.parents obj y := by
    intro y
    rw [List.mem_cons, a3]
    by_cases hy : y = obj <;> simp [AtOrBeyond, hy]
  have pred : ∀ (next : α → List α) {y}, Reach next obj y → ∃ p, AtOrBeyond next obj p ∧ y ∈ next p := by
    intro next y hy
    cases hy with
    | single h => exact ⟨obj, .inl rfl, h⟩
    | tail h1 h2 => exact ⟨_, .inr h1, h2⟩
  have OD : Ordered T.parents obj (fun _ => False) D := by
    refine ⟨hD D d1, fun c hc => ?_⟩
    obtain ⟨p, h1, h2⟩ := pred T.children ((d3 c).1 hc).2
    exact ⟨p, (hinv p c).2 h2, (d4 p).2 h1⟩
  have OA : Ordered T.children obj (· ∈ D) An := by
    refine ⟨hA D An d1 a1, fun c hc => ?_⟩
    obtain ⟨p, h1, h2⟩ := pred T.parents ((a3 c).1 hc).2
    exact ⟨p, (hinv c p).1 h2, (a4 p).2 h1⟩
  obtain ⟨h1, A1, e1, -, D1⟩ := Drawn.new r s o w
  obtain ⟨x, hx⟩ := hstr obj
  obtain ⟨n, h2, A2, e2, D2, -⟩ := D1.addNode (x := x) (a := { label := .str (T.str obj) }) (p := .warn) (by
    unfold Draft.NodeFits; split
    · exact ⟨by simp, rfl⟩
    · trivial)
  have n2 : ∀ k, k ∈ (Draft.addNode { strict := s, ordering := o } x { label := .str (T.str obj) }).names ↔ k = T.hash obj := by
    intro k
    rw [hx]
    exact Draft.mem_addKey.trans (by simp [Draft.names])
  have L2 : (Draft.addNode { strict := s, ordering := o } x { label := .str (T.str obj) }).Labelled T := by
    have : Draft.Labelled T { strict := s, ordering := o } := by intro v hv; cases hv
    have := this.addKey hinj obj hx
    rw [hx] at this; exact this
  obtain ⟨h3, A3, d', e3, D3, L3, n3, i3, s3, o3⟩ := D2.links hstr hinj _ L2 (ordered_down OD ((n2 _).2 rfl) (fun _ hf => hf.elim))
  obtain ⟨h4, A4, d'', e4, D4, L4, n4, i4, s4, o4⟩ := D3.links hstr hinj _ L3 (ordered_up OA ((n3 _).2 (.inl ((n2 _).2 rfl)))
    (fun y hy => by
      obtain ⟨p, hp, hp'⟩ := OD.2 y hy
      exact (n3 _).2 (.inr ⟨(y, p, y), List.mem_flatMap.2 ⟨y, hy, List.mem_map.2 ⟨p, List.mem_filter.2 ⟨hp, decide_eq_true hp'⟩, rfl⟩⟩, rfl⟩)))
  have i2 : (Draft.addNode { strict := s, ordering := o } x { label := .str (T.str obj) }).ids = [] := Draft.addKey_ids _ (.str x) _
  refine ⟨h4, d'', ?_, D4.reachable, D4.draws, ?_, ?_, ?_, ?_, L4, ?_, fun g' hg => D4.others g' hg (Nat.ne_of_lt hg)⟩
  · simp only [fromObject, M.bind_apply, e1, hx, e2, M.ask, d1, a1, objDown_eq, e3, objUp_eq, e4]
    rfl
  · rw [s4, s3]; unfold Draft.addNode; split <;> rfl
  · rw [o4, o3]; unfold Draft.addNode; split <;> rfl
  · rw [D4.names]; exact D4.hist.rep.keysNodup _
  · intro k
    rw [n4, n3, n2]
    constructor
    · rintro ((rfl | ⟨q, hq, rfl⟩) | ⟨q, hq, rfl⟩)
      · exact ⟨obj, rfl, .inl (.inl rfl)⟩
      · obtain ⟨c, hc, hq⟩ := List.mem_flatMap.1 hq
        obtain ⟨p, -, rfl⟩ := List.mem_map.1 hq
        exact ⟨c, rfl, .inl ((d4 c).1 (by simp [hc]))⟩
      · obtain ⟨c, hc, hq⟩ := List.mem_flatMap.1 hq
        obtain ⟨p, -, rfl⟩ := List.mem_map.1 hq
        exact ⟨c, rfl, .inr ((a4 c).1 (by simp [hc]))⟩
    · rintro ⟨y, rfl, hy⟩
      rw [← d4, ← a4] at hy
      rcases hy with hy | hy <;> rcases List.mem_cons.1 hy with rfl | hy
      · exact .inl (.inl rfl)
      · obtain ⟨p, hp, hp'⟩ := OD.2 y hy
        exact .inl (.inr ⟨(y, p, y), List.mem_flatMap.2 ⟨y, hy, List.mem_map.2 ⟨p, List.mem_filter.2 ⟨hp, decide_eq_true hp'⟩, rfl⟩⟩, rfl⟩)
      · exact .inl (.inl rfl)
      · obtain ⟨p, hp, hp'⟩ := OA.2 y hy
        exact .inr ⟨(y, y, p), List.mem_flatMap.2 ⟨y, hy, List.mem_map.2 ⟨p, List.mem_filter.2 ⟨hp, decide_eq_true hp'⟩, rfl⟩⟩, rfl⟩
  · intro i
    rw [i4, i3, i2]
    constructor
    · rintro ((h | ⟨q, hq, rfl⟩) | ⟨q, hq, rfl⟩)
      · cases h
      · obtain ⟨c, hc, hq⟩ := List.mem_flatMap.1 hq
        obtain ⟨p, hp, rfl⟩ := List.mem_map.1 hq
        obtain ⟨q1, q2⟩ := List.mem_filter.1 hp
        exact ⟨p, c, rfl, (hinv p c).1 q1, .inl ⟨(d4 p).1 (of_decide_eq_true q2), ((d3 c).1 hc).1⟩⟩
      · obtain ⟨c, hc, hq⟩ := List.mem_flatMap.1 hq
        obtain ⟨p, hp, rfl⟩ := List.mem_map.1 hq
        obtain ⟨q1, q2⟩ := List.mem_filter.1 hp
        exact ⟨c, p, rfl, q1, .inr ⟨(a4 p).1 (of_decide_eq_true q2), ((a3 c).1 hc).1⟩⟩
    · rintro ⟨p, c, rfl, hc, ⟨h1, h2⟩ | ⟨h1, h2⟩⟩
      · have hcD : c ∈ D := by
          refine (d3 c).2 ⟨h2, ?_⟩
          rcases h1 with rfl | h1
          · exact .single hc
          · exact h1.tail hc
        exact .inl (.inr ⟨(c, p, c), List.mem_flatMap.2 ⟨c, hcD, List.mem_map.2 ⟨p, List.mem_filter.2 ⟨(hinv p c).2 hc, decide_eq_true ((d4 p).2 h1)⟩, rfl⟩⟩, rfl⟩)
      · have hpA : p ∈ An := by
          refine (a3 p).2 ⟨h2, ?_⟩
          have hp := (hinv p c).2 hc
          rcases h1 with rfl | h1
          · exact .single hp
          · exact h1.tail hp
        exact .inr ⟨(p, p, c), List.mem_flatMap.2 ⟨p, hpA, List.mem_map.2 ⟨c, List.mem_filter.2 ⟨hc, decide_eq_true ((a4 c).2 h1)⟩, rfl⟩⟩, rfl⟩

/-! ## When the order is wrong -/

omit [DecidableEq α] in
theorem LinksFit.parts {T : ObjType α} {l l' : List (α × α × α)} {ks : List Key} (h : LinksFit T ks (l ++ l')) :
    LinksFit T ks l ∧ LinksFit T (ks ++ l.map fun q => T.hash q.1) l' := by
  induction l generalizing ks with
  | nil => exact ⟨trivial, by simpa using h⟩
  | cons q l ih =>
    obtain ⟨a, b⟩ := ih h.2.2
    exact ⟨⟨h.1, h.2.1, a⟩, by simpa using b⟩

omit [DecidableEq α] in
/-- A list of links in which an end has not been added by its turn: `KeyError`. -/
theorem Drawn.stuck {T : ObjType α} (hstr : ∀ x, ∃ s, T.hash x = .str s)
    {h0 : Heap} {g : GRef} (l : List (α × α × α)) {h : Heap} {A : Spec} {d : Draft} (D : Drawn h0 h A g d)
    {ks : List Key} (hks : ∀ k, k ∈ ks ↔ k ∈ d.names) (hl : ¬ LinksFit T ks l) : (objLinks T g l h).1 = .error .keyError := by
  induction l generalizing h A d ks with
  | nil => exact absurd trivial hl
  | cons q l ih =>
    obtain ⟨x, p, c⟩ := q
    obtain ⟨s, hs⟩ := hstr x
    obtain ⟨n, h1, A1, e1, D1, -⟩ := D.addNode (x := s) (a := { label := .str (T.str x) }) (p := .warn) (by
      unfold Draft.NodeFits; split
      · exact ⟨by simp, rfl⟩
      · trivial)
    have hn : ∀ k, k ∈ (d.addNode s { label := .str (T.str x) }).names ↔ k ∈ d.names ∨ k = T.hash x := by
      intro k; rw [hs]; exact Draft.mem_addKey
    have missing : ∀ k, ¬ (k ∈ d.names ∨ k = T.hash x) → getNode h1 g (.key k) = .error .keyError := by
      intro k hk
      rw [← hn, D1.names] at hk
      simp only [getNode, D1.hist.rep.nodes, dget_none.2 hk]
    have fail : (getNode h1 g (.key (T.hash p)) = .error .keyError ∨
        ((∃ m, getNode h1 g (.key (T.hash p)) = .ok m) ∧ getNode h1 g (.key (T.hash c)) = .error .keyError)) →
        (objLinks T g ((x, p, c) :: l) h).1 = .error .keyError := by
      intro hf
      simp only [objLinks, objLink, M.bind_apply, hs, e1, Verif.connect, M.ask]
      rcases hf with hf | ⟨⟨m, hm⟩, hf⟩
      · rw [hf]
      · simp only [hm, hf]
    by_cases f1 : T.hash p ∈ d.names ∨ T.hash p = T.hash x
    · by_cases f2 : T.hash c ∈ d.names ∨ T.hash c = T.hash x
      · obtain ⟨e, h2, A2, e2, D2, -⟩ := D1.connect (s := T.hash p) (t := T.hash c) (sa := .key (T.hash p)) (ta := .key (T.hash c))
          (a := {}) (p := .warn) rfl rfl ⟨(hn _).2 f1, (hn _).2 f2, by
            split
            · exact ⟨by simp, rfl⟩
            · trivial⟩
        have := ih D2 (ks := ks ++ [T.hash x]) (by
          intro k
          rw [Draft.connect_names, hn, List.mem_append, hks, List.mem_singleton])
          (fun hc => hl ⟨f1.imp (hks _).2 id, f2.imp (hks _).2 id, hc⟩)
        simp only [objLinks, objLink, M.bind_apply, hs, e1, e2]
        exact this
      · refine fail (.inr ⟨?_, missing _ f2⟩)
        rw [← hn, D1.names] at f1
        obtain ⟨⟨k, m⟩, hm, hk⟩ := List.mem_map.1 f1
        simp only at hk
        refine ⟨m, ?_⟩
        have := dget_of_mem (D1.hist.rep.keysNodup g) hm
        rw [hk] at this
        simp only [getNode, D1.hist.rep.nodes, this]
    · exact fail (.inl (missing _ f1))

theorem fit_down {T : ObjType α} (hinj : ∀ x y, T.hash x = T.hash y → x = y) {obj : α} {l : List α} {seen : α → Prop} {ks : List Key}
    (hks : ∀ y, T.hash y ∈ ks → y = obj ∨ seen y) (hf : LinksFit T ks (l.flatMap (downLinks T (obj :: l)))) :
    InOrder T.parents obj seen l := by
  suffices key : ∀ B A, l = A ++ B → ∀ ks, (∀ y, T.hash y ∈ ks → y = obj ∨ seen y ∨ y ∈ A) →
      LinksFit T ks (B.flatMap (downLinks T (obj :: l))) → ∀ A' c B', B = A' ++ c :: B' → ∀ p ∈ T.parents c, p ∈ obj :: l →
        p = obj ∨ p ∈ A ++ A' ∨ p = c ∨ seen p by
    intro A c B hA p hp hp'
    have := key l [] rfl ks (fun y hy => (hks y hy).imp id .inl) hf A c B hA p hp hp'
    simpa using this
  intro B
  induction B with
  | nil => intro A _ ks _ _ A' c B' e; simp at e
  | cons b B ih =>
    intro A hA ks hks hf A' c B' e p hp hp'
    rw [List.flatMap_cons] at hf
    obtain ⟨f1, f2⟩ := hf.parts
    cases A' with
    | cons a A' =>
      simp at e
      obtain ⟨rfl, rfl⟩ := e
      have := ih (A ++ [b]) (by simp [hA]) _ (by
        intro y hy
        rcases List.mem_append.1 hy with hy | hy
        · rcases hks y hy with h | h | h
          · exact .inl h
          · exact .inr (.inl h)
          · exact .inr (.inr (by simp [h]))
        · obtain ⟨q, hq, e⟩ := List.mem_map.1 hy
          obtain ⟨p', -, rfl⟩ := List.mem_map.1 hq
          exact .inr (.inr (by simp [hinj _ _ e.symm]))) f2 A' c B' rfl p hp hp'
      simpa using this
    | nil =>
      simp at e
      obtain ⟨rfl, rfl⟩ := e
      have hmem : p ∈ (T.parents b).filter (fun p => decide (p ∈ obj :: l)) := List.mem_filter.2 ⟨hp, decide_eq_true hp'⟩
      unfold downLinks at f1
      have hks' : ∀ y, T.hash y ∈ ks → y = obj ∨ y ∈ A ∨ y = b ∨ seen y := by
        intro y hy
        rcases hks y hy with h | h | h
        · exact .inl h
        · exact .inr (.inr (.inr h))
        · exact .inr (.inl h)
      rw [List.append_nil]
      generalize (T.parents b).filter (fun p => decide (p ∈ obj :: l)) = ps at hmem f1
      clear hks f2 hf
      induction ps generalizing ks with
      | nil => cases hmem
      | cons q ps ihp =>
        rcases List.mem_cons.1 hmem with rfl | hmem
        · rcases f1.1 with h | h
          · exact hks' _ h
          · exact .inr (.inr (.inl (hinj _ _ h)))
        · refine ihp _ ?_ hmem f1.2.2
          intro y hy
          rcases List.mem_append.1 hy with hy | hy
          · exact hks' y hy
          · exact .inr (.inr (.inl (hinj _ _ (List.mem_singleton.1 hy))))

theorem fit_up {T : ObjType α} (hinj : ∀ x y, T.hash x = T.hash y → x = y) {obj : α} {l : List α} {seen : α → Prop} {ks : List Key}
    (hks : ∀ y, T.hash y ∈ ks → y = obj ∨ seen y) (hf : LinksFit T ks (l.flatMap (upLinks T (obj :: l)))) :
    InOrder T.children obj seen l := by
  suffices key : ∀ B A, l = A ++ B → ∀ ks, (∀ y, T.hash y ∈ ks → y = obj ∨ seen y ∨ y ∈ A) →
      LinksFit T ks (B.flatMap (upLinks T (obj :: l))) → ∀ A' c B', B = A' ++ c :: B' → ∀ p ∈ T.children c, p ∈ obj :: l →
        p = obj ∨ p ∈ A ++ A' ∨ p = c ∨ seen p by
    intro A c B hA p hp hp'
    have := key l [] rfl ks (fun y hy => (hks y hy).imp id .inl) hf A c B hA p hp hp'
    simpa using this
  intro B
  induction B with
  | nil => intro A _ ks _ _ A' c B' e; simp at e
  | cons b B ih =>
    intro A hA ks hks hf A' c B' e p hp hp'
    rw [List.flatMap_cons] at hf
    obtain ⟨f1, f2⟩ := hf.parts
    cases A' with
    | cons a A' =>
      simp at e
      obtain ⟨rfl, rfl⟩ := e
      have := ih (A ++ [b]) (by simp [hA]) _ (by
        intro y hy
        rcases List.mem_append.1 hy with hy | hy
        · rcases hks y hy with h | h | h
          · exact .inl h
          · exact .inr (.inl h)
          · exact .inr (.inr (by simp [h]))
        · obtain ⟨q, hq, e⟩ := List.mem_map.1 hy
          obtain ⟨p', -, rfl⟩ := List.mem_map.1 hq
          exact .inr (.inr (by simp [hinj _ _ e.symm]))) f2 A' c B' rfl p hp hp'
      simpa using this
    | nil =>
      simp at e
      obtain ⟨rfl, rfl⟩ := e
      have hmem : p ∈ (T.children b).filter (fun p => decide (p ∈ obj :: l)) := List.mem_filter.2 ⟨hp, decide_eq_true hp'⟩
      unfold upLinks at f1
      have hks' : ∀ y, T.hash y ∈ ks → y = obj ∨ y ∈ A ∨ y = b ∨ seen y := by
        intro y hy
        rcases hks y hy with h | h | h
        · exact .inl h
        · exact .inr (.inr (.inr h))
        · exact .inr (.inl h)
      rw [List.append_nil]
      generalize (T.children b).filter (fun p => decide (p ∈ obj :: l)) = ps at hmem f1
      clear hks f2 hf
      induction ps generalizing ks with
      | nil => cases hmem
      | cons q ps ihp =>
        rcases List.mem_cons.1 hmem with rfl | hmem
        · rcases f1.2.1 with h | h
          · exact hks' _ h
          · exact .inr (.inr (.inl (hinj _ _ h)))
        · refine ihp _ ?_ hmem f1.2.2
          intro y hy
          rcases List.mem_append.1 hy with hy | hy
          · exact hks' y hy
          · exact .inr (.inr (.inl (hinj _ _ (List.mem_singleton.1 hy))))

/-- **C54 is violated** also for hashes that are strings: when a descendant is found before one of its parents that is a descendant
too, or an ancestor before one of its children that is an ancestor but no descendant, `from_object` raises `KeyError`. With
`C54_strings_partial` this says exactly when it succeeds. -/
theorem C54_order_violated (T : ObjType α) (hstr : ∀ x, ∃ s, T.hash x = .str s) (hinj : ∀ x y, T.hash x = T.hash y → x = y)
    {obj : α} {lim : Nat} {D An : List α}
    (hD : objRelatives T.children lim obj none = .ok D) (hA : objRelatives T.parents lim obj none = .ok An)
    (hno : ¬ (InOrder T.parents obj (fun _ => False) D ∧ InOrder T.children obj (· ∈ D) An))
    {h : Heap} (r : Reachable h) (s o w : Bool) : (fromObject T lim obj s o w none none h).1 = .error .keyError := by
  obtain ⟨h1, A1, e1, -, D1⟩ := Drawn.new r s o w
  obtain ⟨x, hx⟩ := hstr obj
  obtain ⟨n, h2, A2, e2, D2, -⟩ := D1.addNode (x := x) (a := { label := .str (T.str obj) }) (p := .warn) (by
    unfold Draft.NodeFits; split
    · exact ⟨by simp, rfl⟩
    · trivial)
  have n2 : ∀ k, k ∈ (Draft.addNode { strict := s, ordering := o } x { label := .str (T.str obj) }).names ↔ k = T.hash obj := by
    intro k
    rw [hx]
    exact Draft.mem_addKey.trans (by simp [Draft.names])
  have L2 : (Draft.addNode { strict := s, ordering := o } x { label := .str (T.str obj) }).Labelled T := by
    have : Draft.Labelled T { strict := s, ordering := o } := by intro v hv; cases hv
    have := this.addKey hinj obj hx
    rw [hx] at this; exact this
  by_cases f1 : LinksFit T [T.hash obj] (D.flatMap (downLinks T (obj :: D)))
  · obtain ⟨h3, A3, d', e3, D3, L3, n3, -⟩ := D2.links hstr hinj _ L2 (f1.mono (by
      intro k hk; rw [n2]; exact List.mem_singleton.1 hk))
    have ord := fit_down hinj (seen := fun _ => False) (fun y hy => .inl (hinj _ _ (List.mem_singleton.1 hy))) f1
    have f2 : ¬ LinksFit T d'.names (An.flatMap (upLinks T (obj :: An))) := by
      intro f2
      refine hno ⟨ord, fit_up hinj ?_ f2⟩
      intro y hy
      rw [n3, n2] at hy
      rcases hy with hy | ⟨q, hq, e⟩
      · exact .inl (hinj _ _ hy)
      · obtain ⟨c, hc, hq⟩ := List.mem_flatMap.1 hq
        obtain ⟨p, -, rfl⟩ := List.mem_map.1 hq
        obtain rfl := hinj _ _ e
        exact .inr hc
    have := D3.stuck hstr _ (fun _ => Iff.rfl) f2
    simp only [fromObject, M.bind_apply, e1, hx, e2, M.ask, hD, hA, objDown_eq, e3, objUp_eq]
    cases hr : objLinks T h.nG (An.flatMap (upLinks T (obj :: An))) h3 with
    | mk q h' => rw [hr] at this; simp only at this; subst this; rfl
  · have := D2.stuck hstr _ (ks := [T.hash obj]) (by intro k; rw [n2]; exact List.mem_singleton) f1
    simp only [fromObject, M.bind_apply, e1, hx, e2, M.ask, hD, hA, objDown_eq]
    cases hr : objLinks T h.nG (D.flatMap (downLinks T (obj :: D))) h2 with
    | mk q h' => rw [hr] at this; simp only at this; subst this; rfl

/-! ## Examples -/

/-- A family: 0 is the parent of 1, 1 of 2 and 3, and 3 of 4. -/
def family : ObjType (Fin 5) :=
  { children := fun n => match n with
      | 0 => [1]
      | 1 => [2, 3]
      | 3 => [4]
      | _ => []
    parents := fun n => match n with
      | 1 => [0]
      | 2 => [1]
      | 3 => [1]
      | 4 => [3]
      | _ => []
    hash := fun n => .str (match n with
      | 0 => "Ada"
      | 1 => "Ben"
      | 2 => "Cem"
      | 3 => "Dia"
      | 4 => "Eva")
    str := fun n => match n with
      | 0 => "Ada, the oldest"
      | _ => "a relative" }

/-- 0 has the children 2 and 1, and 2 is a child of 1 too. -/
def crossing : ObjType (Fin 3) :=
  { children := fun n => match n with
      | 0 => [2, 1]
      | 1 => [2]
      | _ => []
    parents := fun n => match n with
      | 1 => [0]
      | 2 => [0, 1]
      | _ => []
    hash := fun n => .str (match n with
      | 0 => "Ada"
      | 1 => "Ben"
      | 2 => "Cem")
    str := fun _ => "a relative" }

/-- In `crossing` 2 is a child of 0 and of 1, 1 is a child of 0, and 0 names 2 first. -/
example {h : Heap} (r : Reachable h) (s o w : Bool) : (fromObject crossing 3 0 s o w none none h).1 = .error .keyError := by
  refine C54_order_violated crossing (fun x => ⟨_, rfl⟩) (by decide +kernel) (D := [2, 1]) (An := []) (by decide +kernel) (by decide +kernel) ?_ r s o w
  rintro ⟨h1, -⟩
  have := h1 [] 2 [1] rfl 1 (by decide) (by decide)
  simp at this

/-- The hypotheses of `C54_strings_partial` about the order, for the relatives of 1 in the family. -/
example : objRelatives family.children 5 1 none = .ok [2, 3, 4] ∧ objRelatives family.parents 5 1 none = .ok [0] := by
  decide +kernel

/-- The family meets all the hypotheses, on a graph collection that is not empty. -/
example {h : Heap} (r : Reachable h) (s o w : Bool) : ∃ h' d, fromObject family 5 1 s o w none none h = (.ok h.nG, h') ∧ Draws h' h.nG d := by
  obtain ⟨h', d, h1, -, h2, -⟩ := C54_strings_partial family (fun x => ⟨_, rfl⟩) (by decide +kernel) (by decide +kernel) (U := [0, 1, 2, 3, 4])
    (fun _ _ z _ => by clear * -; revert z; decide) (obj := 1) (by decide) (Nat.le_refl 5)
    (by
      intro l hl
      rw [show objRelatives family.children 5 1 none = .ok [2, 3, 4] by decide +kernel] at hl
      obtain rfl := (Except.ok.inj hl).symm
      intro A c B hA
      rcases A with _ | ⟨a, _ | ⟨b, _ | ⟨x, _ | ⟨y, A⟩⟩⟩⟩ <;> simp at hA
      all_goals
        obtain ⟨rfl, h⟩ := hA
        try obtain ⟨rfl, h⟩ := h
        try obtain ⟨rfl, h⟩ := h
        decide +kernel)
    (by
      intro D l hD hl
      rw [show objRelatives family.children 5 1 none = .ok [2, 3, 4] by decide +kernel] at hD
      rw [show objRelatives family.parents 5 1 none = .ok [0] by decide +kernel] at hl
      obtain rfl := (Except.ok.inj hl).symm
      obtain rfl := (Except.ok.inj hD).symm
      intro A c B hA
      rcases A with _ | ⟨a, _ | ⟨b, A⟩⟩ <;> simp at hA
      obtain ⟨rfl, h⟩ := hA
      decide +kernel)
    r s o w
  exact ⟨h', d, h1, h2⟩

/-- What it draws for the family: five nodes, numbered in the order of their names here. -/
example : let q := fromObject family 5 1 true true true none none Heap.init
    q.1 = .ok 0 ∧ dkeys (q.2.graph 0).nodes = [.str "Ben", .str "Cem", .str "Dia", .str "Eva", .str "Ada"] := by
  decide +kernel

end Verif
