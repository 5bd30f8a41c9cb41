import Verif.Lemmas.Again
import Verif.Props.Stylize
/-!
# Styling that goes through

Where the graph allows overwriting, every part of `stylize` succeeds if its settings make sense.
-/
namespace Verif
open Palette W
variable {C : Type} [Palette C]

theorem node_ofItems_sane {l : List (NodeItem C)} (h : NodeItem.other ∉ l) : ∃ s, NodeStyle.ofItems l = .ok s := by
  have : ∀ (l : List (NodeItem C)) (a : NodeStyleArgs C), NodeItem.other ∉ l → ∃ a', l.foldlM NodeItem.arg a = .ok a' := by
    intro l
    induction l with
    | nil => intro a _; exact ⟨a, rfl⟩
    | cons i l ih =>
      intro a hn
      simp only [List.mem_cons, not_or] at hn
      rw [List.foldlM_cons]
      cases i <;> first | exact absurd rfl hn.1 | exact ih _ hn.2
  obtain ⟨a, ha⟩ := this l { colour := some Palette.default } h
  exact ⟨.make a, by simp [NodeStyle.ofItems, ha, bind, Except.bind]⟩

theorem edge_ofItems_sane {l : List (EdgeItemStyle C)} (h : EdgeItemStyle.other ∉ l) : ∃ s, EdgeStyle.ofItems l = .ok s := by
  have : ∀ (l : List (EdgeItemStyle C)) (a : EdgeStyleArgs C), EdgeItemStyle.other ∉ l → ∃ a', l.foldlM EdgeItemStyle.arg a = .ok a' := by
    intro l
    induction l with
    | nil => intro a _; exact ⟨a, rfl⟩
    | cons i l ih =>
      intro a hn
      simp only [List.mem_cons, not_or] at hn
      rw [List.foldlM_cons]
      cases i <;> first | exact absurd rfl hn.1 | exact ih _ hn.2
  obtain ⟨a, ha⟩ := this l { colour := some Palette.default } h
  exact ⟨.make a, by simp [EdgeStyle.ofItems, ha, bind, Except.bind]⟩

omit [Palette C] in
theorem smartStyle_sane {h : Heap} {g : GRef} {l : List (NodeItem C)} (hl : NodeItem.other ∉ l)
    (hs : ∀ s, NodeItem.shape s ∈ l → s ≠ none ∧ graphNodes h g ≠ []) :
    ∃ l', smartStyle h g l = .ok l' ∧ NodeItem.other ∉ l' := by
  have mem : ∀ (l : List (NodeItem C)) s, shapeOf l = some s → NodeItem.shape s ∈ l := by
    intro l
    induction l with
    | nil => intro s h; cases h
    | cons i l ih =>
      intro s h
      cases i <;> first
        | exact List.mem_cons_of_mem _ (ih s h)
        | (simp only [shapeOf, Option.some.injEq] at h; subst h; exact List.mem_cons_self ..)
  have circ : NodeItem.other ∉ withCircle l := by
    intro hm
    obtain ⟨i, hi, e⟩ := List.mem_map.1 hm
    cases i <;> first | exact hl hi | cases e
  unfold smartStyle
  cases hq : shapeOf l with
  | none => exact ⟨l, rfl, hl⟩
  | some o =>
    obtain ⟨h1, h2⟩ := hs o (mem l o hq)
    cases o with
    | none => exact absurd rfl h1
    | some s =>
      simp only [if_neg h2]
      split
      · split
        · exact ⟨_, rfl, circ⟩
        · exact ⟨l, rfl, hl⟩
      · exact ⟨l, rfl, hl⟩

section
variable {h : Heap} {g : GRef}

/-- The nodes may be given styles, one after the other: styles may be overwritten, or none has a style. -/
def Room (h : Heap) (g : GRef) (v : World C) (ns : List NRef) : Prop :=
  (Permit h g ∧ ∀ n ∈ ns, (h.node n).graph = some g) ∨ (ns.Nodup ∧ ∀ n ∈ ns, nodeLook v n = none)

/-- So may the edges. -/
def RoomE (h : Heap) (g : GRef) (v : World C) (es : List ERef) : Prop :=
  (Permit h g ∧ ∀ e ∈ es, (h.edge e).graph = some g) ∨ (es.Nodup ∧ ∀ e ∈ es, edgeLook v e = none)

omit [Palette C] in
theorem Room.free {v : World C} {n : NRef} {ns : List NRef} (R : Room h g v (n :: ns)) (S : SameBody h v.heap) :
    Free v.heap (v.heap.node n).style (v.heap.node n).graph := by
  rcases R with ⟨hp, ho⟩ | ⟨-, hn⟩
  · exact free_node hp (ho n (by simp)) S
  · exact .inl (nodeLook_none.1 (hn n (by simp)))

omit [Palette C] in
theorem RoomE.free {v : World C} {n : ERef} {ns : List ERef} (R : RoomE h g v (n :: ns)) (S : SameBody h v.heap) :
    Free v.heap (v.heap.edge n).style (v.heap.edge n).graph := by
  rcases R with ⟨hp, ho⟩ | ⟨-, hn⟩
  · exact free_edge hp (ho n (by simp)) S
  · exact .inl (edgeLook_none.1 (hn n (by simp)))

omit [Palette C] in
theorem Room.next {v v' : World C} {n : NRef} {ns : List NRef} {st : NodeStyle C} (R : Room h g v (n :: ns))
    (hv : nodeLook v' = upd (nodeLook v) n (some st)) : Room h g v' ns := by
  rcases R with ⟨hp, ho⟩ | ⟨hd, hn⟩
  · exact .inl ⟨hp, fun m hm => ho m (by simp [hm])⟩
  · rw [List.nodup_cons] at hd
    refine .inr ⟨hd.2, fun m hm => ?_⟩
    have hne : m ≠ n := by rintro rfl; exact hd.1 hm
    rw [hv, upd_ne _ _ hne]
    exact hn m (by simp [hm])

omit [Palette C] in
theorem RoomE.next {v v' : World C} {n : ERef} {ns : List ERef} {st : EdgeStyle C} (R : RoomE h g v (n :: ns))
    (hv : edgeLook v' = upd (edgeLook v) n (some st)) : RoomE h g v' ns := by
  rcases R with ⟨hp, ho⟩ | ⟨hd, hn⟩
  · exact .inl ⟨hp, fun m hm => ho m (by simp [hm])⟩
  · rw [List.nodup_cons] at hd
    refine .inr ⟨hd.2, fun m hm => ?_⟩
    have hne : m ≠ n := by rintro rfl; exact hd.1 hm
    rw [hv, upd_ne _ _ hne]
    exact hn m (by simp [hm])

theorem assignNodes_sane {l : List (NodeItem C)} (hl : NodeItem.other ∉ l) (ns : List NRef) :
    ∀ v : World C, SameBody h v.heap → Fine v → Room h g v ns →
      ∃ v', assignNodes l ns v = (.ok (), v') ∧ Becomes v v' (nodeLook v') (edgeLook v) ∧ ∀ n ∈ ns, nodeLook v' n ≠ none := by
  obtain ⟨st, hst⟩ := node_ofItems_sane hl
  induction ns with
  | nil => intro v _ F _; exact ⟨v, rfl, .refl F, by simp⟩
  | cons n ns ih =>
    intro v S F ho
    have fr := ho.free S
    obtain ⟨v1, h1, B1⟩ := assignNode_run F fr st
    obtain ⟨v2, h2, B2, h3⟩ := ih v1 (S.trans B1.shape) B1.fine (ho.next B1.nodes)
    have q := Silent.assignNodes l ns v1 B1.fine
    rw [h2] at q
    refine ⟨v2, ?_, ?_, fun m hm => ?_⟩
    · unfold assignNodes
      simp only [W.bind_apply]
      have : (W.lift (do let o ← M.look (fun h => h.node n); checkOverwrite o.style o.graph) : W C Unit) v = (.ok (), v) :=
        lift_check (st := fun h => (h.node n).style) (gr := fun h => (h.node n).graph) fr
      rw [this]
      simp only [W.ask_apply, hst, h1, h2]
    · have := B1.trans B2
      rwa [B1.edges] at this
    · rcases List.mem_cons.1 hm with rfl | hm
      · refine q.nodes _ ?_
        rw [B1.nodes]; simp
      · exact h3 m hm

theorem assignEdges_sane {l : List (EdgeItemStyle C)} (hl : EdgeItemStyle.other ∉ l) (ns : List ERef) :
    ∀ v : World C, SameBody h v.heap → Fine v → RoomE h g v ns →
      ∃ v', assignEdges l ns v = (.ok (), v') ∧ Becomes v v' (nodeLook v) (edgeLook v') ∧ ∀ n ∈ ns, Whole v' n := by
  obtain ⟨st, hst⟩ := edge_ofItems_sane hl
  induction ns with
  | nil => intro v _ F _; exact ⟨v, rfl, .refl F, by simp⟩
  | cons n ns ih =>
    intro v S F ho
    have fr := ho.free S
    obtain ⟨v1, h1, B1⟩ := assignEdge_run F fr st
    obtain ⟨v2, h2, B2, h3⟩ := ih v1 (S.trans B1.shape) B1.fine (ho.next B1.edges)
    have q := Silent.assignEdges l ns v1 B1.fine
    rw [h2] at q
    refine ⟨v2, ?_, ?_, fun m hm => ?_⟩
    · unfold assignEdges
      simp only [W.bind_apply]
      have : (W.lift (do let o ← M.look (fun h => h.edge n); checkOverwrite o.style o.graph) : W C Unit) v = (.ok (), v) :=
        lift_check (st := fun h => (h.edge n).style) (gr := fun h => (h.edge n).graph) fr
      rw [this]
      simp only [W.ask_apply, hst, h1, h2]
    · have := B1.trans B2
      rwa [B1.nodes] at this
    · rcases List.mem_cons.1 hm with rfl | hm
      · refine q.whole _ ⟨st, ?_, whole_ofItems hst⟩
        rw [B1.edges]; simp
      · exact h3 m hm

theorem randomPass_sane [DecidableEq C] (ns : List NRef) :
    ∀ (used : Dict C Nat) (v : World C), used ≠ [] → SameBody h v.heap → Fine v → Room h g v ns →
      ∃ v', randomPass ns used v = (.ok (), v') ∧ Becomes v v' (nodeLook v') (edgeLook v) ∧ ∀ n ∈ ns, nodeLook v' n ≠ none := by
  induction ns with
  | nil => intro used v _ _ F _; exact ⟨v, rfl, .refl F, by simp⟩
  | cons n ns ih =>
    intro used v hu S F ho
    cases used with
    | nil => exact absurd rfl hu
    | cons p used =>
    have hr : getLeastUsedColour (p :: used) = .ok ((minLoop used p).1, dset (p :: used) (minLoop used p).1 ((minLoop used p).2 + 1)) := rfl
    generalize hb : minLoop used p = b at hr
    have hne : dset (p :: used) b.1 (b.2 + 1) ≠ [] := by
      unfold dset
      split <;> simp
    obtain ⟨v1, h1, B1⟩ := assignNode_run F (ho.free S) (.make { colour := some b.1 })
    obtain ⟨v2, h2, B2, h3⟩ := ih _ v1 hne (S.trans B1.shape) B1.fine (ho.next B1.nodes)
    have q := Silent.randomPass ns (dset (p :: used) b.1 (b.2 + 1)) v1 B1.fine
    rw [h2] at q
    refine ⟨v2, ?_, ?_, fun m hm => ?_⟩
    · unfold randomPass
      simp only [W.bind_apply, W.ask_apply, hr, h1, h2]
    · have := B1.trans B2
      rwa [B1.edges] at this
    · rcases List.mem_cons.1 hm with rfl | hm
      · refine q.nodes _ ?_
        rw [B1.nodes]; simp
      · exact h3 m hm

theorem edgePass_sane (ratio : Rat) (es : List ERef) : ∀ (last : Option (EdgeStyle C)) (v : World C), Fine v →
    (∀ e ∈ es, ∃ n, edgeStart v.heap e = .ok n ∧ nodeLook v n ≠ none) →
    (∀ e ∈ es, edgeLook v e = none → (v.heap.edge e).value.factor ≠ none) → (∀ e ∈ es, edgeLook v e ≠ none → Whole v e) →
      ∃ v', edgePass ratio es last v = (.ok (), v') ∧ Becomes v v' (nodeLook v) (edgeLook v') ∧ ∀ e ∈ es, Whole v' e := by
  induction es with
  | nil => intro last v F _ _ _; exact ⟨v, rfl, .refl F, by simp⟩
  | cons e es ih =>
    intro last v F hn hv hw
    cases hs : (v.heap.edge e).style with
    | some s =>
      have hl : edgeLook v e ≠ none := by simp [edgeLook, hs]
      obtain ⟨v1, h1, B, h2⟩ := ih last v F (fun x hx => hn x (by simp [hx])) (fun x hx => hv x (by simp [hx])) fun x hx => hw x (by simp [hx])
      have q := Silent.edgePass ratio es last v F
      rw [h1] at q
      refine ⟨v1, ?_, B, fun x hx => ?_⟩
      · unfold edgePass
        simp only [W.bind_apply, W.look_apply, hs, h1]
      · rcases List.mem_cons.1 hx with rfl | hx
        · exact q.whole _ (hw _ (by simp) hl)
        · exact h2 x hx
    | none =>
      have hl : edgeLook v e = none := by simp [edgeLook, hs]
      obtain ⟨n, hn1, hn2⟩ := hn e (by simp)
      have hf := hv e (by simp) hl
      cases hst : (v.heap.node n).style with
      | none => exact absurd (by simp [nodeLook, hst]) hn2
      | some s =>
      have hc : startColour v e = .ok (v.ns s).colour := by simp [startColour, hn1, bind, Except.bind, hst]
      obtain ⟨st, hsc⟩ : ∃ st, (nextEdgeStyle last (darken (v.ns s).colour ratio)).scaleArrow (v.heap.edge e).value = .ok st := by
        cases hval : (v.heap.edge e).value with
        | none => exact ⟨_, rfl⟩
        | int i => exact ⟨_, rfl⟩
        | str _ => rw [hval] at hf; exact absurd rfl hf
        | obj _ => rw [hval] at hf; exact absurd rfl hf
      have hwst := whole_scaleArrow (whole_next last (darken (v.ns s).colour ratio)) hsc
      obtain ⟨v1, h1, B1⟩ := assignEdge_run F (n := e) (.inl hs) st
      have hsub : ∀ x, edgeLook v1 x = none → edgeLook v x = none := by
        intro x hx
        rw [B1.edges] at hx
        by_cases hxe : x = e
        · rw [hxe]; exact hl
        · rwa [upd_ne _ _ hxe] at hx
      obtain ⟨v2, h2, B2, h3⟩ := ih (some st) v1 B1.fine (fun x hx => by
          obtain ⟨m, m1, m2⟩ := hn x (by simp [hx])
          exact ⟨m, by rw [← B1.shape.edgeStart]; exact m1, by rw [B1.nodes]; exact m2⟩)
        (fun x hx hxl => by
          rw [← B1.shape.edgeValue]
          exact hv x (by simp [hx]) (hsub x hxl))
        (fun x hx hxl => by
          by_cases hxe : x = e
          · subst hxe
            exact ⟨st, by rw [B1.edges]; simp, hwst⟩
          · have hxl' : edgeLook v x ≠ none := by rw [B1.edges, upd_ne _ _ hxe] at hxl; exact hxl
            obtain ⟨s', hs', hw'⟩ := hw x (by simp [hx]) hxl'
            exact ⟨s', by rw [B1.edges, upd_ne _ _ hxe]; exact hs', hw'⟩)
      have q := Silent.edgePass ratio es (some st) v1 B1.fine
      rw [h2] at q
      refine ⟨v2, ?_, ?_, fun x hx => ?_⟩
      · unfold edgePass
        simp only [W.bind_apply, W.look_apply, hs, W.ask_apply, hc, hsc, h1, h2]
      · have := B1.trans B2
        rwa [B1.nodes] at this
      · rcases List.mem_cons.1 hx with rfl | hx
        · refine q.whole _ ⟨st, ?_, hwst⟩
          rw [B1.edges]; simp
        · exact h3 x hx

omit [Palette C] in
/-- A loop of calls, each of which succeeds as long as nothing but styles changes. -/
theorem forEach_sane {α : Type} {I : World C → Prop} (hI : ∀ v v', Quiet v v' → I v → I v') {f : α → W C Unit} (sf : ∀ a, Silent (f a))
    (l : List α) : (∀ a ∈ l, ∀ v, Fine v → I v → ∃ v', f a v = (.ok (), v')) → ∀ v, Fine v → I v → ∃ v', forEach f l v = (.ok (), v') := by
  induction l with
  | nil => intro _ v _ _; exact ⟨v, rfl⟩
  | cons a l ih =>
    intro hf v F i
    obtain ⟨v1, h1⟩ := hf a (by simp) v F i
    have q := sf a v F
    rw [h1] at q
    obtain ⟨v2, h2⟩ := ih (fun b hb => hf b (by simp [hb])) v1 q.fine (hI _ _ q i)
    exact ⟨v2, by simp only [forEach, W.bind_apply, h1, h2]⟩

end
end Verif
