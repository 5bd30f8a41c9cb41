import Verif.Spec.Independent
import Mathlib.Data.List.Nodup
import Mathlib.Data.List.Perm.Subperm
/-!
# What a call reads and writes of a ledger
-/
namespace Verif
namespace Ledger

/-- The entry of node `k`. -/
def nodeAt (L : Ledger) (k : Key) : Option NodeL := L.nodes.find? fun v => decide (v.name = k)

/-- The entry of edge `i`. -/
def edgeAt (L : Ledger) (i : EdgeId) : Option EdgeL := L.edges.find? fun v => decide (v.id = i)

/-- No two nodes have the same name, no two edges the same id. -/
structure Good (L : Ledger) : Prop where
  names : L.names.Nodup
  ids : L.ids.Nodup

theorem mem_names_iff {L : Ledger} {k : Key} : k ∈ L.names ↔ (L.nodeAt k).isSome := by
  simp [names, nodeAt, List.find?_isSome]

theorem mem_ids_iff {L : Ledger} {i : EdgeId} : i ∈ L.ids ↔ (L.edgeAt i).isSome := by
  simp [ids, edgeAt, List.find?_isSome]

section Lists
variable {α β : Type} [DecidableEq β] {key : α → β}

theorem find_map {l : List α} {f : α → α} (hf : ∀ a, key (f a) = key a) (k : β) :
    (l.map f).find? (fun v => decide (key v = k)) = (l.find? fun v => decide (key v = k)).map f := by
  induction l with
  | nil => rfl
  | cons a l ih =>
    simp only [List.map_cons, List.find?_cons, hf]
    by_cases h : key a = k <;> simp [h, ih]

theorem find_filter {l : List α} {p : α → Bool} {q : β → Prop} [DecidablePred q] (hp : ∀ a, p a = decide (q (key a))) (k : β) :
    (l.filter p).find? (fun v => decide (key v = k)) = if q k then l.find? (fun v => decide (key v = k)) else none := by
  induction l with
  | nil => simp
  | cons a l ih =>
    rw [List.filter_cons]
    by_cases h : key a = k
    · subst h
      by_cases hq : q (key a) <;> simp [hp, hq, ih]
    · by_cases hq : p a
      · simp [hq, h, ih]
      · simp [hq, h, ih]

theorem find_eq_some_iff {l : List α} (hn : (l.map key).Nodup) {k : β} {a : α} :
    l.find? (fun v => decide (key v = k)) = some a ↔ a ∈ l ∧ key a = k := by
  constructor
  · intro h
    exact ⟨List.mem_of_find?_eq_some h, by simpa using List.find?_some h⟩
  · rintro ⟨ha, rfl⟩
    induction l with
    | nil => cases ha
    | cons b l ih =>
      rw [List.map_cons, List.nodup_cons] at hn
      rcases List.mem_cons.1 ha with rfl | ha
      · simp
      · have : key b ≠ key a := fun h => hn.1 (h ▸ List.mem_map_of_mem ha)
        simp [this, ih hn.2 ha]

theorem perm_of_find {l l' : List α} (hn : (l.map key).Nodup) (hn' : (l'.map key).Nodup)
    (h : ∀ k, l.find? (fun v => decide (key v = k)) = l'.find? fun v => decide (key v = k)) : l.Perm l' := by
  refine (List.perm_ext_iff_of_nodup hn.of_map hn'.of_map).2 fun a => ?_
  have := find_eq_some_iff (k := key a) (a := a) hn
  have h' := find_eq_some_iff (k := key a) (a := a) hn'
  rw [h] at this
  simpa using this.symm.trans h'

theorem find_of_perm {l l' : List α} (hn : (l.map key).Nodup) (p : l.Perm l') (k : β) :
    l.find? (fun v => decide (key v = k)) = l'.find? fun v => decide (key v = k) := by
  have hn' : (l'.map key).Nodup := (p.map key).nodup_iff.1 hn
  refine Option.ext fun a => ?_
  have h1 := find_eq_some_iff (k := k) (a := a) hn
  have h2 := find_eq_some_iff (k := k) (a := a) hn'
  rw [h1, h2, p.mem_iff]

end Lists

/-! ## Sameness through the entries -/

/-- The same options, and the same entries. -/
structure Alike (L L' : Ledger) : Prop where
  strict : L.strict = L'.strict
  ordering : L.ordering = L'.ordering
  overwrite : L.overwrite = L'.overwrite
  node : ∀ k, L.nodeAt k = L'.nodeAt k
  edge : ∀ i, L.edgeAt i = L'.edgeAt i

theorem Same.alike {L L' : Ledger} (G : L.Good) (s : L.Same L') : L.Alike L' :=
  ⟨s.strict, s.ordering, s.overwrite, find_of_perm G.names s.nodes, find_of_perm G.ids s.edges⟩

theorem Alike.same {L L' : Ledger} (G : L.Good) (G' : L'.Good) (s : L.Alike L') : L.Same L' :=
  ⟨s.strict, s.ordering, s.overwrite, perm_of_find G.names G'.names s.node, perm_of_find G.ids G'.ids s.edge⟩

theorem Alike.trans {L L' L'' : Ledger} (a : L.Alike L') (b : L'.Alike L'') : L.Alike L'' :=
  ⟨a.strict.trans b.strict, a.ordering.trans b.ordering, a.overwrite.trans b.overwrite, fun k => (a.node k).trans (b.node k),
    fun k => (a.edge k).trans (b.edge k)⟩

theorem Alike.symm {L L' : Ledger} (a : L.Alike L') : L'.Alike L :=
  ⟨a.strict.symm, a.ordering.symm, a.overwrite.symm, fun k => (a.node k).symm, fun k => (a.edge k).symm⟩

theorem Alike.refl (L : Ledger) : L.Alike L := ⟨rfl, rfl, rfl, fun _ => rfl, fun _ => rfl⟩

/-! ## Writing on one node or one edge -/

theorem onNode_nodeAt (L : Ledger) (k : Key) (f : Option Bool → Notes → After1 Notes) (j : Key) :
    (L.onNode k f).2.nodeAt j = (L.nodeAt j).map fun u =>
      if u.name = k then { u with notes := (f (if u.homeless then none else L.overwrite) u.notes).2 } else u := by
  unfold onNode
  cases h : L.nodes.find? (fun v => decide (v.name = k)) with
  | none =>
    simp only
    cases hj : L.nodeAt j with
    | none => rfl
    | some u =>
      have h1 : u.name = j := by simpa using List.find?_some hj
      have h2 : j ≠ k := by rintro rfl; rw [nodeAt, h] at hj; cases hj
      simp [h1, h2]
  | some v =>
    simp only [nodeAt]
    rw [find_map (key := NodeL.name) (fun a => by split <;> rfl)]
    cases hj : L.nodes.find? (fun v => decide (v.name = j)) with
    | none => rfl
    | some u =>
      have h1 : u.name = j := by simpa using List.find?_some hj
      by_cases h2 : j = k
      · subst h2
        rw [h] at hj
        cases hj
        simp [h1]
      · simp [h1, h2]

theorem onEdge_edgeAt (L : Ledger) (k : EdgeId) (f : Option Bool → Notes → After1 Notes) (j : EdgeId) :
    (L.onEdge k f).2.edgeAt j = (L.edgeAt j).map fun u =>
      if u.id = k then { u with notes := (f L.overwrite u.notes).2 } else u := by
  unfold onEdge
  cases h : L.edges.find? (fun v => decide (v.id = k)) with
  | none =>
    simp only
    cases hj : L.edgeAt j with
    | none => rfl
    | some u =>
      have h1 : u.id = j := by simpa using List.find?_some hj
      have h2 : j ≠ k := by rintro rfl; rw [edgeAt, h] at hj; cases hj
      simp [h1, h2]
  | some v =>
    simp only [edgeAt]
    rw [find_map (key := EdgeL.id) (fun a => by split <;> rfl)]
    cases hj : L.edges.find? (fun v => decide (v.id = j)) with
    | none => rfl
    | some u =>
      have h1 : u.id = j := by simpa using List.find?_some hj
      by_cases h2 : j = k
      · subst h2
        rw [h] at hj
        cases hj
        simp [h1]
      · simp [h1, h2]

theorem onNode_fst (L : Ledger) (k : Key) (f : Option Bool → Notes → After1 Notes) :
    (L.onNode k f).1 = match L.nodeAt k with
      | none => .error .keyError
      | some v => (f (if v.homeless then none else L.overwrite) v.notes).1 := by
  unfold onNode nodeAt
  cases L.nodes.find? (fun v => decide (v.name = k)) <;> rfl

theorem onEdge_fst (L : Ledger) (k : EdgeId) (f : Option Bool → Notes → After1 Notes) :
    (L.onEdge k f).1 = match L.edgeAt k with
      | none => .error .keyError
      | some v => (f L.overwrite v.notes).1 := by
  unfold onEdge edgeAt
  cases L.edges.find? (fun v => decide (v.id = k)) <;> rfl

theorem onNode_rest (L : Ledger) (k : Key) (f : Option Bool → Notes → After1 Notes) :
    (L.onNode k f).2.strict = L.strict ∧ (L.onNode k f).2.ordering = L.ordering ∧ (L.onNode k f).2.overwrite = L.overwrite ∧
      (L.onNode k f).2.edges = L.edges ∧ (L.onNode k f).2.names = L.names := by
  unfold onNode
  cases L.nodes.find? (fun v => decide (v.name = k)) with
  | none => exact ⟨rfl, rfl, rfl, rfl, rfl⟩
  | some v =>
    refine ⟨rfl, rfl, rfl, rfl, ?_⟩
    simp only [names, List.map_map]
    refine List.map_congr_left fun a _ => ?_
    simp only [Function.comp]
    split <;> rfl

theorem onEdge_rest (L : Ledger) (k : EdgeId) (f : Option Bool → Notes → After1 Notes) :
    (L.onEdge k f).2.strict = L.strict ∧ (L.onEdge k f).2.ordering = L.ordering ∧ (L.onEdge k f).2.overwrite = L.overwrite ∧
      (L.onEdge k f).2.nodes = L.nodes ∧ (L.onEdge k f).2.ids = L.ids := by
  unfold onEdge
  cases L.edges.find? (fun v => decide (v.id = k)) with
  | none => exact ⟨rfl, rfl, rfl, rfl, rfl⟩
  | some v =>
    refine ⟨rfl, rfl, rfl, rfl, ?_⟩
    simp only [ids, List.map_map]
    refine List.map_congr_left fun a _ => ?_
    simp only [Function.comp]
    split <;> rfl

/-! ## Locality -/

/-- The ledgers agree on what `d` looks at. -/
structure Agree (d : Deed) (L L' : Ledger) : Prop where
  overwrite : L.overwrite = L'.overwrite
  node : ∀ k, d.node? = some k → L.nodeAt k = L'.nodeAt k
  ends : ∀ k, d.ends k → (L.nodeAt k).isSome = (L'.nodeAt k).isSome
  edge : ∀ i, d.edge i → L.edgeAt i = L'.edgeAt i

/-- What a call on the ledger is like: it keeps the options, changes only its own node and edges, and what it does depends on them only. -/
structure Local (d : Deed) : Prop where
  good : ∀ L : Ledger, L.Good → (L.run d).2.Good
  strict : ∀ L : Ledger, (L.run d).2.strict = L.strict
  ordering : ∀ L : Ledger, (L.run d).2.ordering = L.ordering
  overwrite : ∀ L : Ledger, (L.run d).2.overwrite = L.overwrite
  node : ∀ (L : Ledger) k, d.node? ≠ some k → (L.run d).2.nodeAt k = L.nodeAt k
  bears : ∀ (L : Ledger) k, ¬ d.bears k → ((L.run d).2.nodeAt k).isSome = (L.nodeAt k).isSome
  edge : ∀ (L : Ledger) i, ¬ d.edge i → (L.run d).2.edgeAt i = L.edgeAt i
  raises : ∀ L L' : Ledger, Agree d L L' → (L.run d).1 = (L'.run d).1
  nodeNew : ∀ L L' : Ledger, Agree d L L' → ∀ k, d.node? = some k → (L.run d).2.nodeAt k = (L'.run d).2.nodeAt k
  edgeNew : ∀ L L' : Ledger, Agree d L L' → ∀ i, d.edge i → (L.run d).2.edgeAt i = (L'.run d).2.edgeAt i

theorem Local.onNode {d : Deed} {k : Key} {f : Option Bool → Notes → After1 Notes} (hr : ∀ L : Ledger, L.run d = L.onNode k f)
    (hn : d.node? = some k) (he : ∀ i, ¬ d.edge i) : Local d where
  good L G := by
    rw [hr]
    obtain ⟨-, -, -, h1, h2⟩ := onNode_rest L k f
    exact ⟨h2 ▸ G.names, by simpa only [ids, h1] using G.ids⟩
  strict L := by rw [hr]; exact (onNode_rest L k f).1
  ordering L := by rw [hr]; exact (onNode_rest L k f).2.1
  overwrite L := by rw [hr]; exact (onNode_rest L k f).2.2.1
  node L j hj := by
    rw [hr, onNode_nodeAt]
    cases h : L.nodeAt j with
    | none => rfl
    | some u =>
      have h1 : u.name = j := by simpa using List.find?_some h
      have h2 : j ≠ k := fun e => hj (e ▸ hn)
      simp [h1, h2]
  bears L j _ := by rw [hr, onNode_nodeAt]; simp
  edge L i _ := by rw [hr]; simp only [edgeAt, (onNode_rest L k f).2.2.2.1]
  raises L L' A := by rw [hr, hr, onNode_fst, onNode_fst, A.node k hn, A.overwrite]
  nodeNew L L' A j hj := by rw [hr, hr, onNode_nodeAt, onNode_nodeAt, A.node j hj, A.overwrite]
  edgeNew L L' A i hi := absurd hi (he i)

theorem Local.onEdge {d : Deed} {k : EdgeId} {f : Option Bool → Notes → After1 Notes} (hr : ∀ L : Ledger, L.run d = L.onEdge k f)
    (hn : d.node? = none) (he : ∀ i, d.edge i ↔ k = i) : Local d where
  good L G := by
    rw [hr]
    obtain ⟨-, -, -, h1, h2⟩ := onEdge_rest L k f
    exact ⟨by simpa only [names, h1] using G.names, h2 ▸ G.ids⟩
  strict L := by rw [hr]; exact (onEdge_rest L k f).1
  ordering L := by rw [hr]; exact (onEdge_rest L k f).2.1
  overwrite L := by rw [hr]; exact (onEdge_rest L k f).2.2.1
  node L j hj := by rw [hr]; simp only [nodeAt, (onEdge_rest L k f).2.2.2.1]
  bears L j _ := by rw [hr]; simp only [nodeAt, (onEdge_rest L k f).2.2.2.1]
  edge L i hi := by
    rw [hr, onEdge_edgeAt]
    cases h : L.edgeAt i with
    | none => rfl
    | some u =>
      have h1 : u.id = i := by simpa using List.find?_some h
      have h2 : i ≠ k := fun e => hi ((he i).2 e.symm)
      simp [h1, h2]
  raises L L' A := by rw [hr, hr, onEdge_fst, onEdge_fst, A.edge k ((he k).2 rfl), A.overwrite]
  nodeNew L L' A j hj := by rw [hn] at hj; cases hj
  edgeNew L L' A i hi := by rw [hr, hr, onEdge_edgeAt, onEdge_edgeAt, A.edge i hi, A.overwrite]

theorem cutEdge_edgeAt (L : Ledger) (i j : EdgeId) : (L.cutEdge i).2.edgeAt j = if j ≠ i then L.edgeAt j else none := by
  unfold cutEdge
  by_cases h : i ∈ L.ids
  · rw [if_pos h]
    exact find_filter (key := EdgeL.id) (q := fun j => j ≠ i) (fun a => rfl) j
  · rw [if_neg h]
    by_cases hj : j = i
    · subst hj
      rw [mem_ids_iff] at h
      simpa using h
    · simp [hj]

theorem Local.cutEdge {d : Deed} {k : EdgeId} (hr : ∀ L : Ledger, L.run d = L.cutEdge k)
    (hn : d.node? = none) (he : ∀ i, d.edge i ↔ k = i) : Local d where
  good L G := by
    rw [hr]
    unfold Ledger.cutEdge
    split
    · exact ⟨G.names, (List.filter_sublist.map _).nodup G.ids⟩
    · exact G
  strict L := by rw [hr]; unfold Ledger.cutEdge; split <;> rfl
  ordering L := by rw [hr]; unfold Ledger.cutEdge; split <;> rfl
  overwrite L := by rw [hr]; unfold Ledger.cutEdge; split <;> rfl
  node L j _ := by rw [hr]; unfold Ledger.cutEdge; split <;> rfl
  bears L j _ := by rw [hr]; unfold Ledger.cutEdge; split <;> rfl
  edge L i hi := by
    rw [hr, cutEdge_edgeAt, if_pos]
    exact fun e => hi ((he i).2 e.symm)
  raises L L' A := by
    have := A.edge k ((he k).2 rfl)
    have e : (k ∈ L.ids) = (k ∈ L'.ids) := by rw [mem_ids_iff, mem_ids_iff, this]
    rw [hr, hr]
    unfold Ledger.cutEdge
    simp only [e]
    split <;> rfl
  nodeNew L L' A j hj := by rw [hn] at hj; cases hj
  edgeNew L L' A i hi := by rw [hr, hr, cutEdge_edgeAt, cutEdge_edgeAt, A.edge i hi]

theorem nodeAt_push (L : Ledger) (v : NodeL) (k : Key) :
    ({ L with nodes := L.nodes ++ [v] } : Ledger).nodeAt k = (L.nodeAt k).or (if v.name = k then some v else none) := by
  simp only [nodeAt, List.find?_append]
  by_cases h : v.name = k <;> simp [h]

theorem edgeAt_push (L : Ledger) (v : EdgeL) (i : EdgeId) :
    ({ L with edges := L.edges ++ [v] } : Ledger).edgeAt i = (L.edgeAt i).or (if v.id = i then some v else none) := by
  simp only [edgeAt, List.find?_append]
  by_cases h : v.id = i <;> simp [h]

theorem good_onNode {L : Ledger} (G : L.Good) (k : Key) (f : Option Bool → Notes → After1 Notes) : (L.onNode k f).2.Good := by
  obtain ⟨-, -, -, h1, h2⟩ := onNode_rest L k f
  exact ⟨h2 ▸ G.names, by simpa only [ids, h1] using G.ids⟩

theorem good_onEdge {L : Ledger} (G : L.Good) (k : EdgeId) (f : Option Bool → Notes → After1 Notes) : (L.onEdge k f).2.Good := by
  obtain ⟨-, -, -, h1, h2⟩ := onEdge_rest L k f
  exact ⟨by simpa only [names, h1] using G.names, h2 ▸ G.ids⟩

theorem local_addInt (z : Int) (a : NodeArgs) (p : IfExists) : Local (.addNode (.int z) a p) where
  good _ G := G
  strict _ := rfl
  ordering _ := rfl
  overwrite _ := rfl
  node _ _ _ := rfl
  bears _ _ _ := rfl
  edge _ _ _ := rfl
  raises _ _ _ := rfl
  nodeNew _ _ A k hk := A.node k hk
  edgeNew _ _ _ _ hi := hi.elim

theorem onNode_local {L : Ledger} {k : Key} {f : Option Bool → Notes → After1 Notes} {j : Key} (hj : j ≠ k) :
    (L.onNode k f).2.nodeAt j = L.nodeAt j := by
  rw [onNode_nodeAt]
  cases h : L.nodeAt j with
  | none => rfl
  | some u =>
    have h1 : u.name = j := by simpa using List.find?_some h
    simp [h1, hj]

theorem onEdge_local {L : Ledger} {k : EdgeId} {f : Option Bool → Notes → After1 Notes} {j : EdgeId} (hj : j ≠ k) :
    (L.onEdge k f).2.edgeAt j = L.edgeAt j := by
  rw [onEdge_edgeAt]
  cases h : L.edgeAt j with
  | none => rfl
  | some u =>
    have h1 : u.id = j := by simpa using List.find?_some h
    simp [h1, hj]

theorem local_addStr (x : String) (a : NodeArgs) (p : IfExists) : Local (.addNode (.str x) a p) where
  good L G := by
    simp only [run]
    split
    · split
      · exact G
      · exact good_onNode G _ _
    · rename_i hx
      split
      · refine ⟨?_, G.ids⟩
        simp only [names, List.map_append, List.map_cons, List.map_nil]
        exact List.nodup_append.2 ⟨G.names, by simp, by
          intro y hy z hz e
          simp only [List.mem_singleton] at hz
          exact hx (hz ▸ e ▸ hy)⟩
      · exact G
  strict L := by
    simp only [run]
    split
    · split
      · rfl
      · exact (onNode_rest L _ _).1
    · split <;> rfl
  ordering L := by
    simp only [run]
    split
    · split
      · rfl
      · exact (onNode_rest L _ _).2.1
    · split <;> rfl
  overwrite L := by
    simp only [run]
    split
    · split
      · rfl
      · exact (onNode_rest L _ _).2.2.1
    · split <;> rfl
  node L k hk := by
    have hk : k ≠ .str x := fun e => hk (by rw [e]; rfl)
    simp only [run]
    split
    · split
      · rfl
      · exact onNode_local hk
    · split
      · rw [nodeAt_push, if_neg (Ne.symm hk), Option.or_none]
      · rfl
  bears L k hk := by
    have hk : k ≠ .str x := fun e => hk e.symm
    simp only [run]
    split
    · split
      · rfl
      · rw [onNode_local hk]
    · split
      · rw [nodeAt_push, if_neg (Ne.symm hk), Option.or_none]
      · rfl
  edge L i _ := by
    simp only [run]
    split
    · split
      · rfl
      · simp only [edgeAt, (onNode_rest L _ _).2.2.2.1]
    · split <;> rfl
  raises L L' A := by
    have e : (Key.str x ∈ L.names) = (Key.str x ∈ L'.names) := by rw [mem_names_iff, mem_names_iff, A.node _ rfl]
    simp only [run, e]
    split
    · split
      · rfl
      · rw [onNode_fst, onNode_fst, A.node _ rfl, A.overwrite]
    · split <;> rfl
  nodeNew L L' A k hk := by
    have hA := A.node k hk
    obtain rfl : Key.str x = k := Option.some.inj hk
    have e : (Key.str x ∈ L.names) = (Key.str x ∈ L'.names) := by rw [mem_names_iff, mem_names_iff, hA]
    simp only [run, e]
    split
    · split
      · exact hA
      · rw [onNode_nodeAt, onNode_nodeAt, hA, A.overwrite]
    · split
      · rw [nodeAt_push, nodeAt_push, hA]
      · exact hA
  edgeNew L L' A i hi := hi.elim

theorem local_connect (s t : Key) (a : EdgeArgs) (p : IfExists) : Local (.connect s t a p) where
  good L G := by
    simp only [run]
    split
    · exact G
    · split
      · split
        · exact G
        · exact good_onEdge G _ _
      · rename_i hx
        split
        · refine ⟨G.names, ?_⟩
          simp only [ids, List.map_append, List.map_cons, List.map_nil]
          exact List.nodup_append.2 ⟨G.ids, by simp, by
            intro y hy z hz e
            simp only [List.mem_singleton] at hz
            exact hx (hz ▸ e ▸ hy)⟩
        · exact G
  strict L := by
    simp only [run]
    split
    · rfl
    · split
      · split
        · rfl
        · exact (onEdge_rest L _ _).1
      · split <;> rfl
  ordering L := by
    simp only [run]
    split
    · rfl
    · split
      · split
        · rfl
        · exact (onEdge_rest L _ _).2.1
      · split <;> rfl
  overwrite L := by
    simp only [run]
    split
    · rfl
    · split
      · split
        · rfl
        · exact (onEdge_rest L _ _).2.2.1
      · split <;> rfl
  node L k _ := by
    simp only [run]
    split
    · rfl
    · split
      · split
        · rfl
        · simp only [nodeAt, (onEdge_rest L _ _).2.2.2.1]
      · split <;> rfl
  bears L k _ := by
    simp only [run]
    split
    · rfl
    · split
      · split
        · rfl
        · simp only [nodeAt, (onEdge_rest L _ _).2.2.2.1]
      · split <;> rfl
  edge L i hi := by
    have hi : i ≠ (s, t, a.raw) := fun e => hi e.symm
    simp only [run]
    split
    · rfl
    · split
      · split
        · rfl
        · exact onEdge_local hi
      · split
        · rw [edgeAt_push, if_neg (Ne.symm hi), Option.or_none]
        · rfl
  raises L L' A := by
    have hA := A.edge (s, t, a.raw) rfl
    have e1 : (s ∈ L.names) = (s ∈ L'.names) := by rw [mem_names_iff, mem_names_iff, A.ends s (.inl rfl)]
    have e2 : (t ∈ L.names) = (t ∈ L'.names) := by rw [mem_names_iff, mem_names_iff, A.ends t (.inr rfl)]
    have e3 : ((s, t, a.raw) ∈ L.ids) = ((s, t, a.raw) ∈ L'.ids) := by rw [mem_ids_iff, mem_ids_iff, hA]
    simp only [run, e1, e2, e3]
    split
    · rfl
    · split
      · split
        · rfl
        · rw [onEdge_fst, onEdge_fst, hA, A.overwrite]
      · split <;> rfl
  nodeNew L L' A k hk := by cases hk
  edgeNew L L' A i hi := by
    have hA := A.edge i hi
    obtain rfl : (s, t, a.raw) = i := hi
    have e1 : (s ∈ L.names) = (s ∈ L'.names) := by rw [mem_names_iff, mem_names_iff, A.ends s (.inl rfl)]
    have e2 : (t ∈ L.names) = (t ∈ L'.names) := by rw [mem_names_iff, mem_names_iff, A.ends t (.inr rfl)]
    have e3 : ((s, t, a.raw) ∈ L.ids) = ((s, t, a.raw) ∈ L'.ids) := by rw [mem_ids_iff, mem_ids_iff, hA]
    simp only [run, e1, e2, e3]
    split
    · exact hA
    · split
      · split
        · exact hA
        · rw [onEdge_edgeAt, onEdge_edgeAt, hA, A.overwrite]
      · split
        · rw [edgeAt_push, edgeAt_push, hA]
        · exact hA

/-- Whether or not node `k` is there, it is not there afterwards. -/
theorem removeNode_nodeAt (L : Ledger) (k j : Key) : (L.run (.removeNode k)).2.nodeAt j = if j ≠ k then L.nodeAt j else none := by
  simp only [run]
  by_cases h : k ∈ L.names
  · rw [if_pos h]
    exact find_filter (key := NodeL.name) (q := fun j => j ≠ k) (fun a => rfl) j
  · rw [if_neg h]
    by_cases hj : j = k
    · subst hj
      rw [mem_names_iff] at h
      simpa using h
    · simp [hj]

/-- The edges at the node go if the node is there. -/
theorem removeNode_edgeAt (L : Ledger) (k : Key) (i : EdgeId) :
    (L.run (.removeNode k)).2.edgeAt i = if (L.nodeAt k).isSome → (i.1 ≠ k ∧ i.2.1 ≠ k) then L.edgeAt i else none := by
  simp only [run]
  by_cases h : k ∈ L.names
  · rw [if_pos h]
    rw [mem_names_iff] at h
    simp only [h, forall_const]
    exact find_filter (key := EdgeL.id) (q := fun i : EdgeId => i.1 ≠ k ∧ i.2.1 ≠ k) (fun a => rfl) i
  · rw [if_neg h]
    rw [mem_names_iff] at h
    simp [h]

theorem local_removeNode (k : Key) : Local (.removeNode k) where
  good L G := by
    simp only [run]
    split
    · exact ⟨(List.filter_sublist.map _).nodup G.names, (List.filter_sublist.map _).nodup G.ids⟩
    · exact G
  strict L := by simp only [run]; split <;> rfl
  ordering L := by simp only [run]; split <;> rfl
  overwrite L := by simp only [run]; split <;> rfl
  node L j hj := by
    rw [removeNode_nodeAt, if_pos]
    exact fun e => hj (e ▸ rfl)
  bears L j hj := by
    rw [removeNode_nodeAt, if_pos]
    exact fun e => hj e.symm
  edge L i hi := by
    rw [removeNode_edgeAt, if_pos]
    exact fun _ => ⟨fun e => hi (.inl e), fun e => hi (.inr e)⟩
  raises L L' A := by
    have e : (k ∈ L.names) = (k ∈ L'.names) := by rw [mem_names_iff, mem_names_iff, A.node _ rfl]
    simp only [run, e]
    split <;> rfl
  nodeNew L L' A j hj := by rw [removeNode_nodeAt, removeNode_nodeAt, A.node j hj]
  edgeNew L L' A i hi := by rw [removeNode_edgeAt, removeNode_edgeAt, A.edge i hi, A.node k rfl]

theorem local_of (d : Deed) : Local d := by
  cases d with
  | nodeValue k v => exact .onNode (f := fun _ n => n.setValue v) (fun _ => rfl) rfl (fun _ h => h)
  | nodeLabel k v => exact .onNode (f := fun _ n => (.ok (), { n with label := v })) (fun _ => rfl) rfl (fun _ h => h)
  | nodeStyle k s => exact .onNode (f := fun may n => n.setStyle may s) (fun _ => rfl) rfl (fun _ h => h)
  | nodeFreeze k b => exact .onNode (f := fun _ n => (.ok (), { n with frozen := b })) (fun _ => rfl) rfl (fun _ h => h)
  | nodeParam k x v => exact .onNode (f := fun _ n => (.ok (), { n with params := dset n.params x v })) (fun _ => rfl) rfl (fun _ h => h)
  | edgeValue k v => exact .onEdge (f := fun _ n => n.setValue v) (fun _ => rfl) rfl (fun _ => Iff.rfl)
  | edgeLabel k v => exact .onEdge (f := fun _ n => (.ok (), { n with label := v })) (fun _ => rfl) rfl (fun _ => Iff.rfl)
  | edgeStyle k s => exact .onEdge (f := fun may n => n.setStyle may s) (fun _ => rfl) rfl (fun _ => Iff.rfl)
  | edgeFreeze k b => exact .onEdge (f := fun _ n => (.ok (), { n with frozen := b })) (fun _ => rfl) rfl (fun _ => Iff.rfl)
  | edgeParam k x v => exact .onEdge (f := fun _ n => (.ok (), { n with params := dset n.params x v })) (fun _ => rfl) rfl (fun _ => Iff.rfl)
  | disconnect i => exact .cutEdge (fun _ => rfl) rfl (fun _ => Iff.rfl)
  | removeSelf i => exact .cutEdge (fun _ => rfl) rfl (fun _ => Iff.rfl)
  | addNode x a p => cases x with
    | int z => exact local_addInt z a p
    | str x => exact local_addStr x a p
  | connect s t a p => exact local_connect s t a p
  | removeNode k => exact local_removeNode k

/-! ## Consequences -/

theorem Alike.agree {L L' : Ledger} (A : L.Alike L') (d : Deed) : Agree d L L' :=
  ⟨A.overwrite, fun k _ => A.node k, fun k _ => by rw [A.node k], fun i _ => A.edge i⟩

theorem Alike.raises {L L' : Ledger} (A : L.Alike L') (d : Deed) : (L.run d).1 = (L'.run d).1 := (local_of d).raises _ _ (A.agree d)

theorem Alike.run {L L' : Ledger} (A : L.Alike L') (d : Deed) : (L.run d).2.Alike (L'.run d).2 := by
  have l := local_of d
  refine ⟨?_, ?_, ?_, fun k => ?_, fun i => ?_⟩
  · rw [l.strict, l.strict, A.strict]
  · rw [l.ordering, l.ordering, A.ordering]
  · rw [l.overwrite, l.overwrite, A.overwrite]
  · by_cases h : d.node? = some k
    · exact l.nodeNew _ _ (A.agree d) k h
    · rw [l.node _ k h, l.node _ k h, A.node]
  · by_cases h : d.edge i
    · exact l.edgeNew _ _ (A.agree d) i h
    · rw [l.edge _ i h, l.edge _ i h, A.edge]

theorem Alike.runAll (ds : List Deed) : ∀ {L L' : Ledger}, L.Alike L' →
    (L.runAll ds).1 = (L'.runAll ds).1 ∧ (L.runAll ds).2.Alike (L'.runAll ds).2 := by
  induction ds with
  | nil => exact fun A => ⟨rfl, A⟩
  | cons d ds ih =>
    intro L L' A
    have := ih (A.run d)
    simp only [Ledger.runAll]
    exact ⟨by rw [A.raises d, this.1], this.2⟩

theorem Good.runAll (ds : List Deed) : ∀ {L : Ledger}, L.Good → (L.runAll ds).2.Good := by
  induction ds with
  | nil => exact fun G => G
  | cons d ds ih => exact fun G => ih ((local_of d).good _ G)

theorem _root_.Verif.Deed.Independent.symm {d e : Deed} (I : d.Independent e) : e.Independent d where
  nodes k h h' := I.nodes k h' h
  ends := I.ends'
  ends' := I.ends
  edges := I.edges.elim (fun ⟨k, l, a, b⟩ => .inl ⟨l, k, b, a⟩) fun f => .inr fun i h h' => f i h' h

/-- What `e` looks at is the same after `d`. -/
theorem agree_after {d e : Deed} (I : d.Independent e) (hd : ∀ i, d.edge i → ¬ e.edge i) (L : Ledger) : Agree e L (L.run d).2 where
  overwrite := ((local_of d).overwrite L).symm
  node k h := ((local_of d).node L k fun h' => I.nodes k h' h).symm
  ends k h := ((local_of d).bears L k fun h' => I.ends k h' h).symm
  edge i h := ((local_of d).edge L i fun h' => hd i h' h).symm

/-- Two independent calls: each raises the same before and after the other. -/
theorem independent_raises {d e : Deed} (I : d.Independent e) (L : Ledger) : ((L.run d).2.run e).1 = (L.run e).1 := by
  rcases I.edges with ⟨k, l, rfl, rfl⟩ | hd
  · have hkl : l ≠ k := fun h => I.nodes k rfl (h ▸ rfl)
    have : (l ∈ (L.run (.removeNode k)).2.names) = (l ∈ L.names) := by
      rw [mem_names_iff, mem_names_iff, removeNode_nodeAt, if_pos hkl]
    conv_lhs => simp only [run.eq_def _ (.removeNode l), this]
    conv_rhs => simp only [run.eq_def _ (.removeNode l)]
    split <;> rfl
  · exact ((local_of e).raises _ _ (agree_after I hd L)).symm

theorem independent_alike {d e : Deed} (I : d.Independent e) (L : Ledger) :
    ((L.run d).2.run e).2.Alike ((L.run e).2.run d).2 := by
  have ld := local_of d
  have le := local_of e
  refine ⟨?_, ?_, ?_, fun k => ?_, fun i => ?_⟩
  · rw [ld.strict, le.strict, le.strict, ld.strict]
  · rw [ld.ordering, le.ordering, le.ordering, ld.ordering]
  · rw [ld.overwrite, le.overwrite, le.overwrite, ld.overwrite]
  · rcases I.edges with ⟨a, b, rfl, rfl⟩ | hd
    · rw [removeNode_nodeAt, removeNode_nodeAt, removeNode_nodeAt, removeNode_nodeAt]
      split <;> split <;> rfl
    · by_cases h1 : d.node? = some k
      · have h2 := I.nodes k h1
        rw [le.node _ k h2]
        exact ld.nodeNew _ _ (agree_after I.symm (fun i a b => hd i b a) L) k h1
      · rw [ld.node _ k h1]
        by_cases h2 : e.node? = some k
        · exact (le.nodeNew _ _ (agree_after I hd L) k h2).symm
        · rw [le.node _ k h2, le.node _ k h2, ld.node _ k h1]
  · rcases I.edges with ⟨a, b, rfl, rfl⟩ | hd
    · have hab : b ≠ a := fun h => I.nodes a rfl (h ▸ rfl)
      rw [removeNode_edgeAt, removeNode_edgeAt, removeNode_edgeAt, removeNode_edgeAt, removeNode_nodeAt, removeNode_nodeAt,
        if_pos hab, if_pos hab.symm]
      split <;> split <;> rfl
    · by_cases h1 : d.edge i
      · have h2 := hd i h1
        rw [le.edge _ i h2]
        exact ld.edgeNew _ _ (agree_after I.symm (fun i a b => hd i b a) L) i h1
      · rw [ld.edge _ i h1]
        by_cases h2 : e.edge i
        · exact (le.edgeNew _ _ (agree_after I hd L) i h2).symm
        · rw [le.edge _ i h2, le.edge _ i h2, ld.edge _ i h1]

/-- A call that is independent of all of `es` may as well come after them. -/
theorem postpone {d : Deed} (es : List Deed) : ∀ (L : Ledger), (∀ e ∈ es, d.Independent e) →
    ((L.run d).2.runAll es).1 = (L.runAll es).1 ∧ ((L.run d).2.runAll es).2.Alike ((L.runAll es).2.run d).2 ∧
      ((L.runAll es).2.run d).1 = (L.run d).1 := by
  induction es with
  | nil => exact fun L _ => ⟨rfl, .refl _, rfl⟩
  | cons e es ih =>
    intro L I
    have Ie := I e (by simp)
    have a := (independent_alike Ie L).runAll es
    obtain ⟨h1, h2, h3⟩ := ih (L.run e).2 fun x hx => I x (by simp [hx])
    simp only [Ledger.runAll]
    exact ⟨by rw [independent_raises Ie, a.1, h1], a.2.trans h2, h3.trans (independent_raises Ie.symm L)⟩

theorem runAll_append (ds es : List Deed) : ∀ L : Ledger,
    (L.runAll (ds ++ es)).2 = ((L.runAll ds).2.runAll es).2 := by
  induction ds with
  | nil => exact fun L => rfl
  | cons d ds ih => exact fun L => ih _

/-- The calls of two parties on a ledger. -/
def runBoth : List (Bool × Deed) → Ledger → List (Bool × Except PyErr Unit) × Ledger
  | [], L => ([], L)
  | d :: ds, L => ((d.1, (L.run d.2).1) :: (runBoth ds (L.run d.2).2).1, (runBoth ds (L.run d.2).2).2)

theorem partOf_cons {α : Type} (b c : Bool) (x : α) (l : List (Bool × α)) :
    partOf b ((c, x) :: l) = if c = b then x :: partOf b l else partOf b l := by
  cases b <;> cases c <;> rfl

theorem mem_partOf {α : Type} {b : Bool} {x : α} {l : List (Bool × α)} : x ∈ partOf b l ↔ (b, x) ∈ l := by
  simp [partOf]

theorem both (ms : List (Bool × Deed)) : ∀ L : Ledger, (∀ x ∈ ms, ∀ y ∈ ms, x.1 ≠ y.1 → x.2.Independent y.2) →
    (∀ b, partOf b (runBoth ms L).1 = (L.runAll (partOf b ms)).1) ∧
      (runBoth ms L).2.Alike (L.runAll (partOf true ms ++ partOf false ms)).2 := by
  induction ms with
  | nil => exact fun L _ => ⟨fun _ => rfl, .refl _⟩
  | cons m ms ih =>
    obtain ⟨c, d⟩ := m
    intro L I
    obtain ⟨h1, h2⟩ := ih (L.run d).2 fun x hx y hy => I x (by simp [hx]) y (by simp [hy])
    have P : ∀ b, c ≠ b → ∀ e ∈ partOf b ms, d.Independent e := fun b hb e he =>
      I (c, d) (by simp) (b, e) (by simp [mem_partOf.1 he]) hb
    refine ⟨fun b => ?_, ?_⟩
    · simp only [runBoth, partOf_cons]
      by_cases hb : c = b
      · rw [if_pos hb, if_pos hb, h1]
        rfl
      · rw [if_neg hb, if_neg hb, h1, (postpone _ L (P b hb)).1]
    · simp only [runBoth, partOf_cons]
      cases c with
      | true => simpa [Ledger.runAll] using h2
      | false =>
        rw [if_neg (by simp), if_pos rfl, runAll_append]
        rw [runAll_append] at h2
        exact h2.trans ((postpone _ L (P true (by simp))).2.1.runAll _).2

end Ledger
end Verif
