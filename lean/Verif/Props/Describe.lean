import Verif.Spec.Describe
import Verif.Props.Ledger
import Verif.Props.Elsewhere
import Verif.Lemmas.Over
/-!
# C112: describing a graph with a dictionary

What `append` and `Graph(obj=dictionary)` do to a graph, and what a program that uses them among other calls does.
-/
namespace Verif
variable {C : Type}

theorem dedupEdges_options (g : GRef) (s o : Option Bool) (h : Heap) (l r : List ERef) :
    dedupEdges (graphSetOptions g s o h).2 l r = dedupEdges h l r := by
  have hm : ∀ e l, memEdge (graphSetOptions g s o h).2 e l = memEdge h e l := by
    intro e l
    induction l with
    | nil => rfl
    | cons x l ih => simp only [memEdge, ih]; rfl
  induction l generalizing r with
  | nil => rfl
  | cons x l ih => simp only [dedupEdges, ih, hm]

/-- Graph `g` looks like `L`, and `sh` says whether it has display attributes. -/
structure KeptAs (g : GRef) (sh : Bool) (w : World C) (L : Ledger) : Prop where
  reach : Reachable w.heap
  here : g < w.heap.nG
  shown : (w.display g).isSome = sh
  reads : Reads w.heap g L

/-- `x` does to the graph what `f` does to its ledger. -/
def Follows {α : Type} (g : GRef) (sh : Bool) (R : α → Prop) (x : W C α) (f : Ledger → After1 Ledger) : Prop :=
  ∀ w L, KeptAs g sh w L → (x w).1.map (fun _ => ()) = (f L).1 ∧ KeptAs g sh (x w).2 (f L).2 ∧ ∀ a, (x w).1 = .ok a → R a

namespace Follows
variable {α β : Type} {g : GRef} {sh : Bool} {R : α → Prop} {S : β → Prop}

theorem bind {x : W C α} {y : α → W C β} {f k : Ledger → After1 Ledger} (hx : Follows g sh R x f) (hy : ∀ a, R a → Follows g sh S (y a) k) :
    Follows g sh S (x >>= y) (fun L => Ledger.andThen (f L) k) := by
  intro w L K
  obtain ⟨h1, h2, h3⟩ := hx w L K
  simp only [W.bind_apply]
  cases hq : x w with
  | mk q w1 =>
    rw [hq] at h1 h2 h3
    cases hf : f L with
    | mk q' L1 =>
      rw [hf] at h1 h2
      cases q with
      | error e =>
        cases h1
        exact ⟨rfl, h2, fun _ h => by cases h⟩
      | ok a =>
        cases h1
        exact hy a (h3 a rfl) w1 L1 h2

/-- A step that changes neither the heap nor whether there are display attributes. -/
theorem aside {x : W C α} {r : Except PyErr Unit}
    (h : ∀ w : World C, (w.display g).isSome = sh → (x w).1.map (fun _ => ()) = r ∧ (x w).2.heap = w.heap ∧ ((x w).2.display g).isSome = sh) :
    Follows g sh (fun _ => True) x (fun L => (r, L)) := by
  intro w L K
  obtain ⟨h1, h2, h3⟩ := h w K.shown
  exact ⟨h1, ⟨h2 ▸ K.reach, h2 ▸ K.here, h3, h2 ▸ K.reads⟩, fun _ _ => trivial⟩

/-- A deed. -/
theorem deed {x : W C α} {y : M β} {T : α → β → Prop} (O : Over T x y) (d : Deed) (hd : ∀ h, d.run g h = ((y h).1.map fun _ => (), (y h).2)) :
    Follows g sh (fun _ => True) x (·.run d) := by
  intro w L K
  obtain ⟨h1, h2⟩ := C107_step K.reach K.here K.reads d
  have hr := hd w.heap
  have h3 : (x w).1.map (fun _ => ()) = (y w.heap).1.map fun _ => () := by
    cases hq : (x w).1 with
    | error e => rw [O.error w e hq]; rfl
    | ok a => obtain ⟨b, hb, -⟩ := O.ok w a hq; rw [hb]; rfl
  have h4 : (x w).2.heap = (d.run g w.heap).2 := by rw [O.heap, hr]
  refine ⟨by rw [h3, ← h1, hr], ⟨?_, ?_, by rw [O.display]; exact K.shown, h4 ▸ h2⟩, fun _ _ => trivial⟩
  · rw [h4]; exact d.reachable K.reach K.here
  · rw [h4]
    rcases d.call g w.heap with ⟨op, -, e, -⟩ | e
    · rw [e]; exact Nat.lt_of_lt_of_le K.here (Grows.step op w.heap).nG
    · rw [e]; exact K.here

/-- The options. -/
theorem options (s o : Option Bool) : Follows g sh (fun _ => True) (W.lift (graphSetOptions g s o) : W C Unit)
    (fun L => (.ok (), { L with strict := s.getD L.strict, ordering := o.getD L.ordering })) := by
  intro w L K
  have r := K.reads
  refine ⟨rfl, ⟨Reachable.step (.setOptions g s o) K.reach K.here, K.here, K.shown, ?_⟩, fun _ _ => trivial⟩
  have hN : graphNodes ((graphSetOptions g s o) w.heap).2 g = graphNodes w.heap g := by
    simp [graphNodes, graphSetOptions, M.modGraph]
  refine ⟨?_, ?_, ?_, ?_, ?_⟩
  · simp [W.lift, graphSetOptions, M.modGraph, r.strict]
  · simp [W.lift, graphSetOptions, M.modGraph, r.ordering]
  · simp [W.lift, graphSetOptions, M.modGraph, r.overwrite]
  · show (graphNodes ((graphSetOptions g s o) w.heap).2 g).map _ = _
    rw [hN]; exact r.nodes
  · obtain ⟨es, h1, h2, h3, h4⟩ := r.edges
    refine ⟨es, h1, h2, ?_, ?_⟩
    · intro n hn
      have h5 : ∀ n, outwardEdges (graphSetOptions g s o w.heap).2 n = outwardEdges w.heap n := fun _ => dedupEdges_options _ _ _ _ _ _
      have h6 : ∀ n, inwardEdges (graphSetOptions g s o w.heap).2 n = inwardEdges w.heap n := fun _ => dedupEdges_options _ _ _ _ _ _
      have h7 : ∀ e, edgeStart (graphSetOptions g s o w.heap).2 e = edgeStart w.heap e := fun _ => rfl
      have h8 : ∀ e, edgeEnd (graphSetOptions g s o w.heap).2 e = edgeEnd w.heap e := fun _ => rfl
      simp only [W.lift, h5, h6, h7, h8]
      exact h3 n (hN ▸ hn)
    · intro e he
      have := h4 e he
      rw [← hN] at this
      exact this

theorem modDisplay (f : Display C → Display C) : Follows g sh (fun _ => True) (Verif.modDisplay g f) (fun L => (.ok (), L)) :=
  aside fun w h => ⟨rfl, rfl, by simpa [Verif.modDisplay] using h⟩

theorem label (v : Option Val) (D : GraphDict C) (hv : v = D.label) :
    Follows g sh (fun _ => True) (appendLabel g v : W C Unit) (fun L => (D.labelFails, L)) := by
  subst hv
  unfold GraphDict.labelFails
  cases D.label with
  | none => exact aside fun w h => ⟨rfl, rfl, h⟩
  | some v =>
    cases v with
    | str s => exact modDisplay _
    | _ => exact aside fun w h => ⟨rfl, rfl, h⟩

theorem setInDisplay (f : Display C → Display C) :
    Follows g sh (fun _ => True) (Verif.setInDisplay g f) (fun L => (if sh then .ok () else .error .attributeError, L)) := by
  refine aside fun w h => ?_
  cases hd : w.display g with
  | none =>
    rw [hd] at h
    have hsh : sh = false := h.symm
    subst hsh
    simp [Verif.setInDisplay, W.bind_apply, W.display, hd, Except.map]
  | some d =>
    rw [hd] at h
    have hsh : sh = true := h.symm
    subst hsh
    rw [setInDisplay_run hd]
    simp [Except.map]

theorem nodeSettings {β : Type} (k : β → W C Unit) (hk : ∀ b, ∃ f, k b = Verif.setInDisplay g f) (l : List β) :
    Follows g sh (fun _ => True) (forEach k l) (fun L => (nodeSettingsFail sh l, L)) := by
  induction l with
  | nil => exact aside fun w h => ⟨rfl, rfl, h⟩
  | cons b l ih =>
    obtain ⟨f, hf⟩ := hk b
    have := (setInDisplay (g := g) (sh := sh) f).bind fun _ _ => ih
    rw [← hf] at this
    have e : (fun L => (nodeSettingsFail sh (b :: l), L)) = fun L : Ledger =>
        Ledger.andThen (if sh = true then .ok () else .error .attributeError, L) fun L => (nodeSettingsFail sh l, L) := by
      funext L
      cases sh <;> simp [nodeSettingsFail, Ledger.andThen]
    rw [e]
    exact this

theorem edgeSettings {known : Dict (Key × Key) EdgeId} {pairs : List (Key × Key)} (hk : ∀ p, p ∈ dkeys known ↔ p ∈ pairs) (l : List (EdgeSetting C)) :
    Follows g sh (fun _ => True) (forEach (appendEdgeSetting g known) l) (fun L => (edgeSettingsFail sh pairs l, L)) := by
  induction l with
  | nil => exact aside fun w h => ⟨rfl, rfl, h⟩
  | cons b l ih =>
    cases b with
    | other => exact aside fun w h => ⟨rfl, rfl, h⟩
    | pair s t c =>
      cases hd : dget known (s, t) with
      | none =>
        have hno : (s, t) ∉ pairs := fun h => by
          exact dget_none.1 hd ((hk _).2 h)
        have e : forEach (appendEdgeSetting g known) (EdgeSetting.pair s t c :: l) = ((W.raise .keyError : W C Unit) >>= fun _ => forEach (appendEdgeSetting g known) l : W C Unit) := by
          show (appendEdgeSetting g known (.pair s t c) >>= _) = _
          simp only [appendEdgeSetting, hd]
        rw [e]
        simp only [edgeSettingsFail, if_neg hno]
        exact aside fun w h => ⟨rfl, rfl, h⟩
      | some i =>
        have hyes : (s, t) ∈ pairs := (hk _).1 (List.mem_map.2 ⟨_, mem_of_dget hd, rfl⟩)
        have e : forEach (appendEdgeSetting g known) (EdgeSetting.pair s t c :: l) =
            (Verif.setInDisplay g (fun d => { d with edgeColours := dset d.edgeColours i c }) >>= fun _ => forEach (appendEdgeSetting g known) l : W C Unit) := by
          show (appendEdgeSetting g known (.pair s t c) >>= _) = _
          simp only [appendEdgeSetting, hd]
        rw [e]
        have e : (fun L => (edgeSettingsFail sh pairs (EdgeSetting.pair s t c :: l), L)) = fun L : Ledger =>
            Ledger.andThen (if sh = true then .ok () else .error .attributeError, L) fun L => (edgeSettingsFail sh pairs l, L) := by
          funext L
          cases sh <;> simp [edgeSettingsFail, hyes, Ledger.andThen]
        rw [e]
        exact (setInDisplay (g := g) (sh := sh) _).bind fun _ _ => ih

variable [Palette C]

theorem addNode (x : Key) (a : NodeSpec C) : Follows g sh (fun _ => True) (addNodeW g x a) (·.run (.addNode x a.args a.policy)) :=
  deed (Over.addNodeW g x a) _ fun h => by
    simp only [Deed.run, M.bind_apply]
    cases Verif.addNode g x a.args a.policy h with
    | mk q h => cases q <;> rfl

theorem connect (s t : Key) (a : EdgeSpec C) : Follows g sh (fun _ => True) (connectW g s t a) (·.run (.connect s t a.args a.policy)) :=
  deed (Over.connectW g s t a) _ fun h => by
    simp only [Deed.run, M.bind_apply]
    cases Verif.connect g (.key s) (.key t) a.args a.policy h with
    | mk q h => cases q <;> rfl

omit [Palette C] in
theorem plain (d : Deed) : Follows g sh (fun _ => True) (W.lift (d.run g) : W C Unit) (·.run d) :=
  deed (Over.lift _) d fun h => by
    cases hq : d.run g h with
    | mk q h => cases q <;> rfl

theorem nodeStyle (k : Key) (s : NodeStyleArg C) :
    Follows g sh (fun _ => True) (do
      let n ← W.ask (fun w => getNode w.heap g (.key k))
      withNodeStyle s (nodeSetStyle n) : W C Unit) (·.run (.nodeStyle k s.plain)) :=
  deed (T := (· = ·)) (y := withNode g k (nodeSetStyle · s.plain))
    ((Over.ask (fun _ a h => ⟨a, h, rfl⟩) fun _ _ h => h).bind (fun _ _ e => e ▸ Over.after (Over.nextNodeStyle s) (.lift _))) _ fun h => by
    show withNode g k (nodeSetStyle · s.plain) h = _
    cases withNode g k (nodeSetStyle · s.plain) h with
    | mk q h => cases q <;> rfl

theorem edgeStyle (i : EdgeId) (s : EdgeStyleArg C) :
    Follows g sh (fun _ => True) (do
      let e ← W.ask (fun w => findEdge w.heap g i)
      withEdgeStyle s (edgeSetStyle e) : W C Unit) (·.run (.edgeStyle i s.plain)) :=
  deed (T := (· = ·)) (y := withEdge g i (edgeSetStyle · s.plain))
    ((Over.ask (fun _ a h => ⟨a, h, rfl⟩) fun _ _ h => h).bind (fun _ _ e => e ▸ Over.after (Over.nextEdgeStyleObj s) (.lift _))) _ fun h => by
    show withEdge g i (edgeSetStyle · s.plain) h = _
    cases withEdge g i (edgeSetStyle · s.plain) h with
    | mk q h => cases q <;> rfl

theorem nodeDict (l : List (Key × NodeSpec C)) :
    Follows g sh (fun _ => True) (appendNodeDictW g l) (Ledger.upTo (l.map fun p => .addNode p.1 p.2.args p.2.policy)) := by
  induction l with
  | nil => exact fun w L K => ⟨rfl, K, fun _ _ => trivial⟩
  | cons p l ih => exact (addNode p.1 p.2).bind fun _ _ => ih

theorem nodes (N : NodesEntry C) : Follows g sh (fun _ => True) (appendNodesW g (some N)) (Ledger.upTo N.deeds) := by
  cases N with
  | dict l => exact nodeDict l
  | list l =>
    have := nodeDict (g := g) (sh := sh) (l.map fun x => (x, ({} : NodeSpec C)))
    rw [List.map_map] at this
    exact this

theorem edgeList (l : List (EdgeEntry C)) {known : Dict (Key × Key) EdgeId} {ps : List (Key × Key)} (hk : ∀ p, p ∈ dkeys known ↔ p ∈ ps) :
    Follows g sh (fun k => ∀ p, p ∈ dkeys k ↔ p ∈ ps ∨ p ∈ l.filterMap EdgeEntry.pair?) (appendEdgeListW g l known) (Ledger.upToEdge l) := by
  induction l generalizing known ps with
  | nil => exact fun w L K => ⟨rfl, K, fun k h => by cases h; simpa using hk⟩
  | cons x l ih =>
    have step : ∀ (s t : Key) (a : EdgeSpec C), x.pair? = some (s, t) →
        Follows g sh (fun k => ∀ p, p ∈ dkeys k ↔ p ∈ ps ∨ p ∈ (x :: l).filterMap EdgeEntry.pair?)
          (do let e ← connectW g s t a
              let i ← W.ask (fun w => edgeId w.heap e)
              appendEdgeListW g l (dset known (s, t) i))
          (fun L => Ledger.andThen (L.run (.connect s t a.args a.policy)) (Ledger.upToEdge l)) := by
      intro s t a hx w L K
      obtain ⟨h1, h2, -⟩ := connect (g := g) (sh := sh) s t a w L K
      simp only at h1 h2
      have O := Over.connectW g s t a
      have o1 := O.heap w
      simp only [W.bind_apply]
      cases hq : connectW g s t a w with
      | mk q w1 =>
        rw [hq] at h1 h2 o1
        cases hf : L.run (.connect s t a.args a.policy) with
        | mk q' L1 =>
          rw [hf] at h1 h2
          cases q with
          | error e =>
            cases h1
            exact ⟨rfl, h2, fun _ h => by cases h⟩
          | ok e =>
            cases h1
            obtain ⟨b, hb, rfl⟩ := O.ok w e (by rw [hq])
            obtain ⟨A, H⟩ := K.reach.hist
            have hid := connect_id H.rep (Prod.ext hb o1.symm : Verif.connect g (.key s) (.key t) a.args a.policy w.heap = (.ok e, w1.heap))
            simp only [W.ask_apply, hid, Ledger.andThen]
            obtain ⟨g1, g2, g3⟩ := ih (known := dset known (s, t) (s, t, a.args.raw)) (ps := (s, t) :: ps)
              (fun p => by rw [Over.mem_dkeys_dset, hk p, List.mem_cons]) w1 L1 h2
            refine ⟨g1, g2, fun k hk' p => ?_⟩
            rw [g3 k hk' p, List.filterMap_cons, hx]
            simp only [List.mem_cons]
            grind
    cases x with
    | two s t => exact step s t {} rfl
    | three s t a => exact step s t a rfl
    | few => exact fun w L K => ⟨rfl, K, fun _ h => by cases h⟩
    | many => exact fun w L K => ⟨rfl, K, fun _ h => by cases h⟩

theorem append (D : GraphDict C) : Follows g sh (fun _ => True) (appendDictW g D) (Ledger.append sh D) := by
  have main := (options (C := C) (g := g) (sh := sh) D.strict D.ordering).bind fun _ _ => (label D.label D rfl).bind fun _ _ =>
    (modDisplay (g := g) (sh := sh) (·.told D)).bind (S := fun (_ : Unit) => True)
      (y := fun _ => do
        appendNodesW g D.nodes
        let known ← appendEdgesW g D.edges
        forEach (appendNodeStyles g) D.nodeStyles
        forEach (appendEdgeSetting g known) D.edgeStyles
        forEach (appendNodeColours g) D.nodeColours
        forEach (appendEdgeSetting g known) D.edgeColours)
      (k := fun L => match D.nodes with
        | none => (.error .keyError, L)
        | some N => Ledger.andThen (Ledger.upTo N.deeds L) fun L =>
          match D.edges with
          | none => (.error .keyError, L)
          | some es => Ledger.andThen (Ledger.upToEdge es L) fun L =>
            let pairs := es.filterMap EdgeEntry.pair?
            (do nodeSettingsFail sh D.nodeStyles
                edgeSettingsFail sh pairs D.edgeStyles
                nodeSettingsFail sh D.nodeColours
                edgeSettingsFail sh pairs D.edgeColours, L)) fun _ _ => by
      cases D.nodes with
      | none => exact aside fun w h => ⟨rfl, rfl, h⟩
      | some N =>
        refine (nodes N).bind fun _ _ => ?_
        cases D.edges with
        | none => exact aside fun w h => ⟨rfl, rfl, h⟩
        | some es =>
          refine (edgeList es (known := []) (ps := []) (fun p => by simp [dkeys])).bind fun known hk => ?_
          have hk' : ∀ p, p ∈ dkeys known ↔ p ∈ es.filterMap EdgeEntry.pair? := fun p => by simpa using hk p
          have e : (fun L : Ledger => (do
                nodeSettingsFail sh D.nodeStyles
                edgeSettingsFail sh (es.filterMap EdgeEntry.pair?) D.edgeStyles
                nodeSettingsFail sh D.nodeColours
                edgeSettingsFail sh (es.filterMap EdgeEntry.pair?) D.edgeColours, L)) = fun L =>
              Ledger.andThen (nodeSettingsFail sh D.nodeStyles, L) fun L =>
              Ledger.andThen (edgeSettingsFail sh (es.filterMap EdgeEntry.pair?) D.edgeStyles, L) fun L =>
              Ledger.andThen (nodeSettingsFail sh D.nodeColours, L) fun L =>
              (edgeSettingsFail sh (es.filterMap EdgeEntry.pair?) D.edgeColours, L) := by
            funext L
            cases nodeSettingsFail sh D.nodeStyles with
            | error e => rfl
            | ok _ =>
              cases edgeSettingsFail sh (es.filterMap EdgeEntry.pair?) D.edgeStyles with
              | error e => rfl
              | ok _ =>
                cases nodeSettingsFail sh D.nodeColours with
                | error e => rfl
                | ok _ => rfl
          show Follows _ _ _ _ (fun L : Ledger => (do
                nodeSettingsFail sh D.nodeStyles
                edgeSettingsFail sh (es.filterMap EdgeEntry.pair?) D.edgeStyles
                nodeSettingsFail sh D.nodeColours
                edgeSettingsFail sh (es.filterMap EdgeEntry.pair?) D.edgeColours, L))
          rw [e]
          exact (nodeSettings (g := g) (sh := sh) (appendNodeStyles g) (fun b => ⟨_, rfl⟩) D.nodeStyles).bind fun _ _ =>
            (edgeSettings hk' D.edgeStyles).bind fun _ _ =>
            (nodeSettings (g := g) (sh := sh) (appendNodeColours g) (fun b => ⟨_, rfl⟩) D.nodeColours).bind fun _ _ =>
            edgeSettings hk' D.edgeColours
  exact main

end Follows

/-! ## The theorems -/

section
variable [Palette C]

/-- **C112**: what `append` raises, and what the graph looks like after it, also if it raises halfway. -/
theorem C112_append {w : World C} (r : Reachable w.heap) {g : GRef} (hg : g < w.heap.nG) {L : Ledger} (K : Reads w.heap g L) (D : GraphDict C) :
    (appendDictW g D w).1 = (L.append (w.display g).isSome D).1 ∧ Reads (appendDictW g D w).2.heap g (L.append (w.display g).isSome D).2 := by
  obtain ⟨h1, h2, -⟩ := Follows.append (g := g) D w L ⟨r, hg, rfl, K⟩
  refine ⟨?_, h2.reads⟩
  rw [← h1]
  cases (appendDictW g D w).1 <;> rfl

omit [Palette C] in
theorem construct_kept {w : World C} (r : Reachable w.heap) (a : GraphArgs C) (D : Option (GraphDict C)) :
    (constructW a D w).1 = .ok w.heap.nG ∧ KeptAs w.heap.nG true (constructW a D w).2
      { strict := a.strict, ordering := a.ordering, overwrite := some ((D.bind (·.overwrite)).getD a.overwrite) } := by
  refine ⟨rfl, Reachable.step (.newGraph a.strict a.ordering ((D.bind (·.overwrite)).getD a.overwrite)) r trivial, Nat.lt_succ_self _, ?_, ?_⟩
  · simp [constructW, graphInit, M.newGraph]
  · refine ⟨?_, ?_, ?_, ?_, [], List.nodup_nil, rfl, ?_, ?_⟩
    all_goals simp [constructW, graphInit, M.newGraph, graphNodes, dvals]

omit [Palette C] in
/-- **C112**: a new graph has the options it was given, no nodes and no edges. -/
theorem C112_new {w : World C} (r : Reachable w.heap) (a : GraphArgs C) :
    ∃ g, (constructW a none w).1 = .ok g ∧ g < (constructW a none w).2.heap.nG ∧ ((constructW a none w).2.display g).isSome ∧
      Reads (constructW a none w).2.heap g { strict := a.strict, ordering := a.ordering, overwrite := some a.overwrite } := by
  obtain ⟨h1, h2⟩ := construct_kept r a none
  exact ⟨_, h1, h2.here, h2.shown, h2.reads⟩

/-- **C112**: `Graph(obj=D, ...)` is an `append` to a new graph. The dictionary decides whether styles may be overwritten, if it
says anything about it. If the constructor raises, there is a graph that was left half done, but nobody gets to see it. -/
theorem C112_dict {w : World C} (r : Reachable w.heap) (a : GraphArgs C) (D : GraphDict C) :
    ∃ L, Ledger.append true D { strict := a.strict, ordering := a.ordering, overwrite := some (D.overwrite.getD a.overwrite) } =
        ((graphOfDict a D w).1.map fun _ => (), L) ∧
      ∀ g, (graphOfDict a D w).1 = .ok g → g < (graphOfDict a D w).2.heap.nG ∧ Reads (graphOfDict a D w).2.heap g L := by
  obtain ⟨h1, h2⟩ := construct_kept r a (some D)
  obtain ⟨h3, h4, -⟩ := Follows.append (g := w.heap.nG) D _ _ h2
  refine ⟨_, Prod.ext ?_ rfl, ?_⟩
  · refine h3.symm.trans ?_
    simp only [graphOfDict, W.bind_apply]
    cases hq : constructW a (some D) w with
    | mk q w1 =>
      rw [hq] at h1
      cases h1
      simp only
      cases appendDictW w.heap.nG D w1 with
      | mk q w2 => cases q <;> rfl
  · intro g hg
    simp only [graphOfDict, W.bind_apply] at hg ⊢
    cases hq : constructW a (some D) w with
    | mk q w1 =>
      rw [hq] at h1 hg h4
      cases h1
      simp only at hg h4 ⊢
      cases hr : appendDictW w.heap.nG D w1 with
      | mk q w2 =>
        rw [hr] at hg h4
        cases q with
        | error e => cases hg
        | ok u =>
          cases hg
          exact ⟨h4.here, h4.reads⟩

/-! ## Programs -/

variable [DecidableEq C]

/-- The step mentions only what exists, and is what it says: `deed` is a call without a style, `other` is not a call on `g`. -/
def Play.Fits (g : GRef) (w : World C) : Play C → Prop
  | .deed d => d.Plain
  | .addNode x a => (Call.addNode g x a).Ok w
  | .connect s t a => (Call.connect g (.key s) (.key t) a).Ok w
  | .nodeStyle _ s => ∀ t, s.plain = .obj t → t < w.heap.nStyle
  | .edgeStyle _ s => ∀ t, s.plain = .obj t → t < w.heap.nStyle
  | .append D => (Call.append g D).Ok w
  | .other c => c.Ok w ∧ ¬ c.on w g

/-- All steps of a program do. -/
def PlaysOk (g : GRef) : List (Play C) → World C → Prop
  | [], _ => True
  | p :: ps, w => p.Fits g w ∧ PlaysOk g ps (p.run g w).2

/-- A step leads from a session to a session. -/
theorem Play.session {w : World C} (s : Session w) {g : GRef} (hg : g < w.heap.nG) {p : Play C} (ok : p.Fits g w) : Session (p.run g w).2 := by
  have bp : ∀ {α : Type} (x : W C α), ((do let _ ← x : W C Unit) w).2 = (x w).2 := by
    intro α x
    simp only [W.bind_apply]
    cases x w with
    | mk o h' => cases o <;> rfl
  cases p with
  | deed d =>
    rcases d.call g w.heap with ⟨op, h1, h2, h3⟩ | e
    · have : (W.lift (d.run g) w).2 = (Call.plain op).step w := by simp [W.lift, Call.step, h2]
      show Session (W.lift (d.run g) w).2
      rw [this]
      exact s.step _ ⟨fun op' e => by cases e; exact ⟨(h3 ok).1, h1 hg⟩, by simp [Call.graphs], by simp [Call.styles, (h3 ok).2], trivial⟩
    · have : (W.lift (d.run g) w).2 = w := by simp [W.lift, e]
      show Session (W.lift (d.run g) w).2
      rw [this]; exact s
  | addNode x a => exact (bp (addNodeW g x a)).symm ▸ s.step _ ok
  | connect s' t a => exact (bp (connectW g s' t a)).symm ▸ s.step _ ok
  | nodeStyle k a =>
    simp only [Play.run, W.bind_apply, W.ask_apply]
    cases getNode w.heap g (.key k) with
    | error e => exact s
    | ok n => exact s.step (.nodeStyle n a) ⟨(fun op e => by cases e), by simp [Call.graphs], fun t ht => ok t (by simpa [Call.styles, eq_comm] using ht), trivial⟩
  | edgeStyle i a =>
    simp only [Play.run, W.bind_apply, W.ask_apply]
    cases findEdge w.heap g i with
    | error e => exact s
    | ok n => exact s.step (.edgeStyle n a) ⟨(fun op e => by cases e), by simp [Call.graphs], fun t ht => ok t (by simpa [Call.styles, eq_comm] using ht), trivial⟩
  | append D => exact s.step (.append g D) ok
  | other c => exact s.step c ok.1

theorem Play.follows {w : World C} (s : Session w) {g : GRef} {sh : Bool} {L : Ledger} (K : KeptAs g sh w L) {p : Play C} (ok : p.Fits g w) :
    (p.run g w).1 = (L.play sh p).1 ∧ KeptAs g sh (p.run g w).2 (L.play sh p).2 := by
  have unit : ∀ {x : W C Unit} {f : Ledger → After1 Ledger}, Follows g sh (fun _ => True) x f → (x w).1 = (f L).1 ∧ KeptAs g sh (x w).2 (f L).2 := by
    intro x f hx
    obtain ⟨h1, h2, -⟩ := hx w L K
    refine ⟨?_, h2⟩
    rw [← h1]
    cases (x w).1 <;> rfl
  have bp : ∀ {α : Type} {x : W C α} {f : Ledger → After1 Ledger}, Follows g sh (fun _ => True) x f →
      ((do let _ ← x : W C Unit) w).1 = (f L).1 ∧ KeptAs g sh ((do let _ ← x : W C Unit) w).2 (f L).2 := by
    intro α x f hx
    obtain ⟨h1, h2, -⟩ := hx w L K
    simp only [W.bind_apply]
    cases hq : x w with
    | mk o h' =>
      rw [hq] at h1 h2
      cases o <;> exact ⟨h1, h2⟩
  cases p with
  | deed d => exact unit (.plain d)
  | addNode x a => exact bp (.addNode x a)
  | connect s' t a => exact bp (.connect s' t a)
  | nodeStyle k a => exact unit (.nodeStyle k a)
  | edgeStyle i a => exact unit (.edgeStyle i a)
  | append D => exact unit (.append D)
  | other c =>
    obtain ⟨u, hd⟩ := C96_objects s ok.1 K.here ok.2
    have r' := (s.step c ok.1).sound.reach
    exact ⟨rfl, r', Nat.lt_of_lt_of_le K.here (s.sound.call_more c ok.1 (fun h => h.elim) (fun h => h.elim)),
      hd ▸ K.shown, K.reads.untouched u (u.stays K.reach r')⟩

/-- **C112**: in any session, whatever a program does with a graph, and with other graphs in between (drawing them included), what
its steps raise and what the graph looks like at the end can be worked out from the steps that concern the graph. -/
theorem C112_program {w : World C} (s : Session w) {g : GRef} (hg : g < w.heap.nG) {L : Ledger} (K : Reads w.heap g L) (ps : List (Play C))
    (ok : PlaysOk g ps w) :
    (runPlays g ps w).1 = (L.playAll (w.display g).isSome ps).1 ∧ Reads (runPlays g ps w).2.heap g (L.playAll (w.display g).isSome ps).2 := by
  have main : ∀ (sh : Bool) (ps : List (Play C)) (w : World C) (L : Ledger), Session w → KeptAs g sh w L → PlaysOk g ps w →
      (runPlays g ps w).1 = (L.playAll sh ps).1 ∧ Reads (runPlays g ps w).2.heap g (L.playAll sh ps).2 := by
    intro sh ps
    induction ps with
    | nil => exact fun w L _ K _ => ⟨rfl, K.reads⟩
    | cons p ps ih =>
      intro w L s K ok
      obtain ⟨h1, h2⟩ := Play.follows s K ok.1
      obtain ⟨h3, h4⟩ := ih _ _ (Play.session s K.here ok.1) h2 ok.2
      simp only [runPlays, Ledger.playAll]
      exact ⟨by rw [h1, h3], h4⟩
  exact main _ ps w L s ⟨s.sound.reach, hg, rfl, K⟩ ok

/-- **C112**: from its construction on. -/
theorem C112_from_new {w : World C} (s : Session w) (a : GraphArgs C) (ps : List (Play C))
    (ok : PlaysOk w.heap.nG ps (constructW a none w).2) :
    (constructW a none w).1 = .ok w.heap.nG ∧
    (runPlays w.heap.nG ps (constructW a none w).2).1 =
      (Ledger.playAll true ps { strict := a.strict, ordering := a.ordering, overwrite := some a.overwrite }).1 ∧
    Reads (runPlays w.heap.nG ps (constructW a none w).2).2.heap w.heap.nG
      (Ledger.playAll true ps { strict := a.strict, ordering := a.ordering, overwrite := some a.overwrite }).2 := by
  obtain ⟨h1, h2⟩ := construct_kept s.sound.reach a none
  have s' : Session (constructW a none w).2 := s.step (.newGraph a) ⟨(fun op e => by cases e), by simp [Call.graphs], by simp [Call.styles], trivial⟩
  have := C112_program s' h2.here h2.reads ps ok
  rw [h2.shown] at this
  exact ⟨h1, this⟩

end
end Verif
