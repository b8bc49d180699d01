import Verif.Lemmas.SchemaMerit
import Verif.Props.SchemaMetrics

/-!
# C75: the lanes of a node fill in order of cost

Piecewise links, river gauges, links with soft limits, treatment works and abstractions consist of several lanes side by side, with
costs and limits of their own. In flows of least cost the cheaper lane is full before the dearer one carries more than its minimum.
-/

namespace Verif.Schema

open Verif.Topology (Name EdgeDecl TNode)
open Verif.Solver (Metric ValueIs f64MAX)

variable {P : ParamNo} {N : Net} {F : Frag} {C : Core} {n : SNode}

theorem stepLoop_at (x : String) (ss : List FlowN) (i j : Nat) (s : FlowN) (h : ss[j]? = some s) :
    ⟨stepName x (i + j), .link, flowData s.cost s.minFlow s.maxFlow, none⟩ ∈ stepLoop x ss i := by
  induction ss generalizing i j with
  | nil => simp at h
  | cons a ss ih =>
    cases j with
    | zero =>
      simp only [List.getElem?_cons_zero, Option.some.injEq] at h
      subst h
      simp [stepLoop]
    | succ j =>
      simp only [List.getElem?_cons_succ] at h
      have := ih (i + 1) j h
      rw [Nat.add_right_comm] at this
      exact List.mem_cons_of_mem _ this

theorem count_range {x : String} {k i : Nat} (h : i < k) : ((List.range k).map (stepName x)).count (stepName x i) = 1 :=
  List.count_eq_one_of_mem (range_nodup (fun _ _ => stepName_inj) _) (List.mem_map.2 ⟨i, List.mem_range.2 h, rfl⟩)

theorem lanes_pieceLink (P : ParamNo) {b : PieceLinkN} (hb : n.body = .pieceLink b) {i j : Nat} {s t : FlowN} (hi : b.steps[i]? = some s)
    (hj : b.steps[j]? = some t) : Lanes P n ⟨stepName n.name i, .link, flowData s.cost s.minFlow s.maxFlow, none⟩
      ⟨stepName n.name j, .link, flowData t.cost t.minFlow t.maxFlow, none⟩ := by
  have li : i < b.steps.length := (List.getElem?_eq_some_iff.1 hi).1
  have lj : j < b.steps.length := (List.getElem?_eq_some_iff.1 hj).1
  have hfr : ∀ G, n.frag P = .ok G → G = b.frag n.name := by
    intro G hG
    unfold SNode.frag at hG
    simp only [hb, Except.ok.injEq] at hG
    exact hG.symm
  have hmem : stepName n.name i ∈ b.names n.name := List.mem_map.2 ⟨i, List.mem_range.2 li, rfl⟩
  refine .of ⟨rfl, rfl⟩ ⟨rfl, rfl⟩ ?_ ?_ ?_ ?_ ?_ ?_
  · intro G hG
    rw [hfr G hG]
    have h1 := stepLoop_at n.name b.steps 0 i s hi
    have h2 := stepLoop_at n.name b.steps 0 j t hj
    rw [Nat.zero_add] at h1 h2
    exact ⟨h1, h2⟩
  · intro s ns h _
    have := inputConnectors_inputs h
    unfold SNode.inputs at this
    simp only [hb, Except.ok.injEq] at this
    exact this ▸ hmem
  · intro s ns h _
    have := outputConnectors_outputs h (by simp [hb]) (by simp [hb]) (by simp [hb])
    unfold SNode.outputs at this
    simp only [hb, Except.ok.injEq] at this
    exact this ▸ hmem
  · intro G hG
    rw [hfr G hG]
    simp [PieceLinkN.frag]
  · intro G hG
    rw [hfr G hG]
    simp [PieceLinkN.frag]
  · intro c ns h
    unfold SNode.flowNodes at h
    simp only [hb] at h
    split at h <;> cases h <;> exact (count_range li).trans (count_range lj).symm

section
variable (h : Built P N F C) (hm : n ∈ N.nodes) (hu : N.Unweighted n.name) {st : Solver.StepState} (hd : 0 < st.days) {big negBig : ℚ}
  {cost : TNode → ℚ} {f : Nat → ℚ} (hp : Priced C.model st cost) (hf : Solver.LeastCost C.model big negBig st cost f)
  (hi : Solver.Inside C.model big negBig f)
include h hm hu hd hp hf hi

/-- **C75 (piecewise link).** Of two steps of a piecewise link the dearer one carries flow beyond its minimum only if the cheaper
one is at its maximum, whatever their order. -/
theorem C75_piecewise_link {b : PieceLinkN} (hb : n.body = .pieceLink b) {i j : Nat} {s t : FlowN} (hs : b.steps[i]? = some s)
    (ht : b.steps[j]? = some t) {c c' : ℚ} (hc : ValueIs st.metric s.cost 0 c) (hc' : ValueIs st.metric t.cost 0 c') (hlt : c < c') :
    ValueIs st.metric s.maxFlow f64MAX (nameFlow F f (stepName n.name i)) ∨
      ValueIs st.metric t.minFlow 0 (nameFlow F f (stepName n.name j)) ∨ nameFlow F f (stepName n.name j) = 0 :=
  lane_order h hm (lanes_pieceLink P hb hs ht) hu hd hp hf hi hc hc' hlt

omit h hm hu hd hp hf hi in
theorem fill_of (us qs : List ℚ) (hl : us.length = qs.length) (h0 : ∀ q ∈ qs, 0 ≤ q)
    (h1 : ∀ (i : Nat) (u q : ℚ), us[i]? = some u → qs[i]? = some q → q ≤ u)
    (h2 : ∀ (i j : Nat) (u q q' : ℚ), i < j → us[i]? = some u → qs[i]? = some q → qs[j]? = some q' → q = u ∨ q' = 0) :
    qs = fill us qs.sum := by
  induction us generalizing qs with
  | nil => cases qs with | nil => rfl | cons => simp at hl
  | cons u us ih =>
    cases qs with
    | nil => simp at hl
    | cons q qs =>
      have hih := ih qs (by simpa using hl) (fun x hx => h0 x (List.mem_cons_of_mem _ hx))
        (fun i a b ha hb => h1 (i + 1) a b ha hb) (fun i j a b c hij ha hb hc => h2 (i + 1) (j + 1) a b c (by omega) ha hb hc)
      have hrest : q = u ∨ qs.sum = 0 := by
        by_cases hq : q = u
        · exact Or.inl hq
        · right
          apply List.sum_eq_zero
          intro x hx
          obtain ⟨k, hk⟩ := List.getElem?_of_mem hx
          exact (h2 0 (k + 1) u q x (by omega) rfl rfl hk).resolve_left hq
      have hqu := h1 0 u q rfl rfl
      have hs : 0 ≤ qs.sum := List.sum_nonneg (fun x hx => h0 x (List.mem_cons_of_mem _ hx))
      have hmin : min u (q + qs.sum) = q := by
        rcases hrest with rfl | h0
        · exact min_eq_left (by linarith)
        · rw [h0, add_zero]; exact min_eq_right hqu
      rw [List.sum_cons]
      unfold fill
      rw [hmin, add_sub_cancel_left, ← hih]

omit hm hu hd hp hf hi in
theorem nameFlow_bounds {st : Solver.StepState} {f : Nat → ℚ} (ha : Solver.Allowed C.model st f) {d : Decl} (hd : d ∈ F.nodes)
    (hk : d.kind = .link) : 0 ≤ nameFlow F f d.name ∧ Solver.AtMost st.metric d.data.maxFlow f64MAX (nameFlow F f d.name) := by
  rw [nameFlow_eq (names_nodup h.built) f hd]
  refine ⟨?_, (flow_limits h.built ha hd (by rw [hk]; decide)).2⟩
  unfold coreFlow
  rw [hk]
  exact outOf_nonneg h.built ha _

/-- **C75 (piecewise link, filled).** What passes a piecewise link of steps of increasing costs without minimum flows fills them one
after the other. -/
theorem C75_piecewise_fill {b : PieceLinkN} (hb : n.body = .pieceLink b) {cs us : List ℚ}
    (hcs : List.Forall₂ (fun (s : FlowN) c => ValueIs st.metric s.cost 0 c) b.steps cs) (hinc : cs.Pairwise (· < ·))
    (hus : List.Forall₂ (fun (s : FlowN) u => ValueIs st.metric s.maxFlow f64MAX u) b.steps us) (hmin : ∀ s ∈ b.steps, s.minFlow = none) :
    (List.range b.steps.length).map (fun i => nameFlow F f (stepName n.name i)) = fill us (sent N F f n.name) := by
  have hsum := ((parallel_pieceLink P n b hb).balance h hm hf.allowed).2
  unfold PieceLinkN.names at hsum
  rw [List.map_map] at hsum
  rw [← hsum]
  have hq : ∀ {i : Nat} {q : ℚ}, ((List.range b.steps.length).map (fun i => nameFlow F f (stepName n.name i)))[i]? = some q →
      ∃ s, b.steps[i]? = some s ∧ q = nameFlow F f (stepName n.name i) := by
    intro i q hq
    have hlt := (List.getElem?_eq_some_iff.1 hq).1
    simp only [List.length_map, List.length_range] at hlt
    simp only [List.getElem?_map, List.getElem?_range hlt, Option.map_some, Option.some.injEq] at hq
    exact ⟨_, List.getElem?_eq_getElem hlt, hq.symm⟩
  have get : ∀ {α β : Type} {r : α → β → Prop} {as : List α} {bs : List β}, List.Forall₂ r as bs → ∀ {k : Nat} {a : α} {b : β},
      as[k]? = some a → bs[k]? = some b → r a b := by
    intro α β r as bs hr k a b ha hb
    obtain ⟨l1, e1⟩ := List.getElem?_eq_some_iff.1 ha
    obtain ⟨l2, e2⟩ := List.getElem?_eq_some_iff.1 hb
    have := hr.get l1 l2
    simpa [e1, e2] using this
  have hbd : ∀ {i : Nat} {s : FlowN}, b.steps[i]? = some s → 0 ≤ nameFlow F f (stepName n.name i) ∧
      Solver.AtMost st.metric s.maxFlow f64MAX (nameFlow F f (stepName n.name i)) := by
    intro i s hs
    obtain ⟨G, hG⟩ := frag_of_mem h.compiled hm
    have := mem_nodes h.compiled hm hG ((lanes_pieceLink P hb hs hs).owned G hG).1
    have hb' := nameFlow_bounds h hf.allowed this rfl
    simp only [flowData] at hb'
    exact hb'
  apply fill_of
  · rw [← hus.length_eq]; simp
  · intro q hqm
    obtain ⟨i, hi'⟩ := List.getElem?_of_mem hqm
    obtain ⟨s, hs, rfl⟩ := hq hi'
    exact (hbd hs).1
  · intro i u q hu' hqi
    obtain ⟨s, hs, rfl⟩ := hq hqi
    obtain ⟨u', h1, h2⟩ := Solver.atMost_value.1 (hbd hs).2
    rw [Solver.valueIs_unique h1 (get hus hs hu')] at h2
    exact h2
  · intro i j u q q' hij hu' hqi hqj
    obtain ⟨s, hs, rfl⟩ := hq hqi
    obtain ⟨t, ht, rfl⟩ := hq hqj
    have hlen := hcs.length_eq
    have li := (List.getElem?_eq_some_iff.1 hs).1
    have lj := (List.getElem?_eq_some_iff.1 ht).1
    have ci : cs[i]? = some (cs[i]'(by omega)) := List.getElem?_eq_getElem _
    have cj : cs[j]? = some (cs[j]'(by omega)) := List.getElem?_eq_getElem _
    have hlt := (List.pairwise_iff_getElem.1 hinc) i j (by omega) (by omega) hij
    rcases C75_piecewise_link h hm hu hd hp hf hi hb hs ht (get hcs hs ci) (get hcs ht cj) hlt with h1 | h1 | h1
    · exact Or.inl (Solver.valueIs_unique h1 (get hus hs hu'))
    · rw [hmin t (List.mem_of_getElem? ht)] at h1
      exact Or.inr h1
    · exact Or.inr h1

omit hu hd hp hi in
/-- Two lanes, of which the second has no minimum flow. -/
theorem two_lanes {x y : Decl} (hl : Lanes P n x y) {u q : ℚ} (hx : ValueIs st.metric x.data.maxFlow f64MAX u)
    (hy : y.data.minFlow = none) (hsum : nameFlow F f x.name + nameFlow F f y.name = q)
    (ho : ValueIs st.metric x.data.maxFlow f64MAX (nameFlow F f x.name) ∨
      ValueIs st.metric y.data.minFlow 0 (nameFlow F f y.name) ∨ nameFlow F f y.name = 0) :
    nameFlow F f x.name = min u q := by
  obtain ⟨G, hG⟩ := frag_of_mem h.compiled hm
  obtain ⟨mx, my⟩ := hl.owned G hG
  have bx := nameFlow_bounds h hf.allowed (mem_nodes h.compiled hm hG mx) hl.links.1
  have bY := nameFlow_bounds h hf.allowed (mem_nodes h.compiled hm hG my) hl.links.2
  obtain ⟨u', h1, h2⟩ := Solver.atMost_value.1 bx.2
  rw [Solver.valueIs_unique h1 hx] at h2
  rcases ho with h3 | h3 | h3
  · rw [Solver.valueIs_unique h3 hx] at hsum ⊢
    exact (min_eq_left (by linarith [bY.1])).symm
  · rw [hy] at h3
    rw [show nameFlow F f y.name = 0 from h3, add_zero] at hsum
    rw [hsum] at h2 ⊢
    exact (min_eq_right h2).symm
  · rw [h3, add_zero] at hsum
    rw [hsum] at h2 ⊢
    exact (min_eq_right h2).symm

omit h hm hu hd hp hf hi in
theorem lanes_gauge (P : ParamNo) {b : GaugeN} (hb : n.body = .riverGauge b) :
    Lanes P n ⟨(n.name, some "mrf"), .link, flowData b.mrfCost b.bypassCost b.mrf, none⟩ ⟨(n.name, some "bypass"), .link, noData, none⟩ := by
  have hfr : ∀ G, n.frag P = .ok G → G = b.frag n.name := by
    intro G hG
    unfold SNode.frag at hG
    simp only [hb, Except.ok.injEq] at hG
    exact hG.symm
  refine .of ⟨rfl, rfl⟩ ⟨rfl, rfl⟩ ?_ ?_ ?_ ?_ ?_ ?_
  · intro G hG; rw [hfr G hG]; simp [GaugeN.frag]
  · intro s ns h _
    have := inputConnectors_inputs h
    unfold SNode.inputs at this
    simp only [hb, Except.ok.injEq] at this
    subst this; simp
  · intro s ns h _
    have := outputConnectors_outputs h (by simp [hb]) (by simp [hb]) (by simp [hb])
    unfold SNode.outputs at this
    simp only [hb, Except.ok.injEq] at this
    subst this; simp
  · intro G hG; rw [hfr G hG]; simp [GaugeN.frag]
  · intro G hG; rw [hfr G hG]; simp [GaugeN.frag]
  · intro c ns h
    unfold SNode.flowNodes at h
    simp only [hb] at h
    split at h <;> cases h <;> simp

/-- **C75 (river gauge).** With a negative cost of the residual flow, a river gauge carries as much of its flow as residual flow as
the latter's limit admits; nothing bypasses it before. -/
theorem C75_gauge {b : GaugeN} (hb : n.body = .riverGauge b) {c u : ℚ} (hc : ValueIs st.metric b.mrfCost 0 c) (hneg : c < 0)
    (hmrf : ValueIs st.metric b.mrf f64MAX u) :
    nameFlow F f (n.name, some "mrf") = min u (sent N F f n.name) := by
  have hl := lanes_gauge P hb
  have hsum := ((parallel_gauge P n b hb).balance h hm hf.allowed).2
  exact two_lanes h hm hf hl hmrf rfl (by simpa using hsum) (lane_order h hm hl hu hd hp hf hi hc (c' := 0) rfl hneg)

omit h hm hu hd hp hf hi in
theorem abreast_link (P : ParamNo) {b : LinkN} (hb : n.body = .link b) {x y : Decl} (hx : x ∈ (b.frag n.name).nodes)
    (hy : y ∈ (b.frag n.name).nodes)
    (hkx : x.kind = .link) (hky : y.kind = .link) (hpx : x.data.costAgg = none) (hpy : y.data.costAgg = none)
    (hx' : x.name ∈ b.names n.name) (hy' : y.name ∈ b.names n.name) : Abreast P n x y := by
  have hfr : ∀ G, n.frag P = .ok G → G = b.frag n.name := by
    intro G hG
    unfold SNode.frag at hG
    simp only [hb, Except.ok.injEq] at hG
    exact hG.symm
  have hE : (b.frag n.name).edges = [] := by unfold LinkN.frag; cases b.softMin <;> cases b.softMax <;> rfl
  have hnd : (b.names n.name).Nodup := (parallel_link P n b hb).nodup
  refine ⟨⟨hkx, hky⟩, ⟨hpx, hpy⟩, ?_, ?_, ?_, ?_, ?_⟩
  · intro G hG; rw [hfr G hG]; exact ⟨hx, hy⟩
  · intro s ns h _
    have := inputConnectors_inputs h
    unfold SNode.inputs at this
    simp only [hb, Except.ok.injEq] at this
    exact this ▸ hx'
  · intro s ns h _
    have := outputConnectors_outputs h (by simp [hb]) (by simp [hb]) (by simp [hb])
    unfold SNode.outputs at this
    simp only [hb, Except.ok.injEq] at this
    exact this ▸ hx'
  · intro G hG; rw [hfr G hG, hE]; simp
  · intro c ns h
    unfold SNode.flowNodes at h
    simp only [hb] at h
    split at h <;> cases h <;> rw [List.count_eq_one_of_mem hnd hx', List.count_eq_one_of_mem hnd hy']

omit h hm hu hd hp hf hi in
theorem lanes_link (P : ParamNo) {b : LinkN} (hb : n.body = .link b) {x y : Decl} (hx : x ∈ (b.frag n.name).nodes)
    (hy : y ∈ (b.frag n.name).nodes) (hagg : ∀ a ∈ (b.frag n.name).aggs, ∀ s ∈ a.nodes, s.count x.name = s.count y.name)
    (hkx : x.kind = .link) (hky : y.kind = .link) (hpx : x.data.costAgg = none) (hpy : y.data.costAgg = none)
    (hx' : x.name ∈ b.names n.name) (hy' : y.name ∈ b.names n.name) : Lanes P n x y := by
  refine ⟨abreast_link P hb hx hy hkx hky hpx hpy hx' hy', ?_⟩
  intro G hG
  unfold SNode.frag at hG
  simp only [hb, Except.ok.injEq] at hG
  rw [← hG]
  exact hagg

/-- **C75 (soft minimum of a link).** A link with a soft minimum flow cheaper than its own cost, and no soft maximum, passes its flow
through the soft lane up to that minimum, and only the rest at its own cost. -/
theorem C75_soft_min {b : LinkN} (hb : n.body = .link b) {lo : Soft} (hlo : b.softMin = some lo) (hhi : b.softMax = none) {c c' u : ℚ}
    (hc : ValueIs st.metric lo.cost 0 c) (hc' : ValueIs st.metric b.cost 0 c') (hlt : c < c') (hmax : ValueIs st.metric lo.flow f64MAX u) :
    nameFlow F f (n.name, some "soft_min") = min u (sent N F f n.name) := by
  have hl : Lanes P n ⟨(n.name, some "soft_min"), .link, flowData lo.cost none lo.flow, none⟩
      ⟨(n.name, none), .link, flowData b.cost none none, none⟩ := by
    apply lanes_link P hb <;> simp [LinkN.frag, LinkN.names, hlo, hhi, flowData]
  have hsum := ((parallel_link P n b hb).balance h hm hf.allowed).2
  simp only [LinkN.names, hlo, hhi, Option.isSome_some, Option.isSome_none, if_true, Bool.false_eq_true, if_false, List.append_nil,
    List.map_cons, List.map_nil, List.sum_cons, List.sum_nil, add_zero] at hsum
  exact two_lanes h hm hf hl hmax rfl (by rw [add_comm]; exact hsum) (lane_order h hm hl hu hd hp hf hi hc hc' hlt)

/-- **C75 (soft maximum of a link).** A link whose cost is below that of its soft maximum, and without soft minimum, passes its flow
at its own cost up to that maximum, and only the rest at the higher cost. -/
theorem C75_soft_max {b : LinkN} (hb : n.body = .link b) {hi' : Soft} (hlo : b.softMin = none) (hhi : b.softMax = some hi') {c c' u : ℚ}
    (hc : ValueIs st.metric b.cost 0 c) (hc' : ValueIs st.metric hi'.cost 0 c') (hlt : c < c') (hmax : ValueIs st.metric hi'.flow f64MAX u) :
    nameFlow F f (n.name, some "soft_max") = min u (sent N F f n.name) := by
  have hl : Lanes P n ⟨(n.name, some "soft_max"), .link, flowData b.cost none hi'.flow, none⟩
      ⟨(n.name, none), .link, flowData hi'.cost none none, none⟩ := by
    apply lanes_link P hb <;> simp [LinkN.frag, LinkN.names, hlo, hhi, flowData]
  have hsum := ((parallel_link P n b hb).balance h hm hf.allowed).2
  simp only [LinkN.names, hlo, hhi, Option.isSome_some, Option.isSome_none, if_true, Bool.false_eq_true, if_false, List.nil_append,
    List.map_cons, List.map_nil, List.sum_cons, List.sum_nil, add_zero] at hsum
  exact two_lanes h hm hf hl hmax rfl (by rw [add_comm]; exact hsum) (lane_order h hm hl hu hd hp hf hi hc hc' hlt)

/-- **C75 (both soft limits).** A link with both soft limits has three lanes: that of the soft minimum, its own and that of the soft
maximum. Whatever their costs, a lane carries flow only if each cheaper one is full; only the first has a limit. -/
theorem C75_soft_both {b : LinkN} (hb : n.body = .link b) {lo hi' : Soft} (hlo : b.softMin = some lo) (hhi : b.softMax = some hi')
    (hfin : sent N F f n.name < f64MAX) {lane lane' : Name × Option Metric × Option Metric}
    (hl : lane ∈ [((n.name, some "soft_min"), lo.cost, lo.flow), ((n.name, none), b.cost, none), ((n.name, some "soft_max"), hi'.cost, none)])
    (hl' : lane' ∈ [((n.name, some "soft_min"), lo.cost, lo.flow), ((n.name, none), b.cost, none), ((n.name, some "soft_max"), hi'.cost, none)])
    {c c' : ℚ} (hc : ValueIs st.metric lane.2.1 0 c) (hc' : ValueIs st.metric lane'.2.1 0 c') (hlt : c < c') :
    ValueIs st.metric lane.2.2 f64MAX (nameFlow F f lane.1) ∨ nameFlow F f lane'.1 = 0 := by
  have hnodes : (b.frag n.name).nodes = [⟨(n.name, none), .link, flowData b.cost none none, none⟩,
      ⟨(n.name, some "soft_min"), .link, flowData lo.cost none lo.flow, none⟩,
      ⟨(n.name, some "soft_max"), .link, flowData hi'.cost none none, none⟩] := by simp only [LinkN.frag, hlo, hhi]
  have haggs : (b.frag n.name).aggs = [⟨(n.name, some "aggregate_node"), [[(n.name, none), (n.name, some "soft_min"),
      (n.name, some "soft_max")]], b.minFlow, hi'.flow.or b.maxFlow, none⟩,
      ⟨(n.name, some "aggregate_node_l_l_min"), [[(n.name, none), (n.name, some "soft_min")]], none, none, none⟩] := by
    simp only [LinkN.frag, hlo, hhi]
  have hnames : b.names n.name = [(n.name, none), (n.name, some "soft_min"), (n.name, some "soft_max")] := by
    simp [LinkN.names, hlo, hhi]
  obtain ⟨G, hG⟩ := frag_of_mem h.compiled hm
  have hfr : ∀ G, n.frag P = .ok G → G = b.frag n.name := by
    intro G hG
    unfold SNode.frag at hG
    simp only [hb, Except.ok.injEq] at hG
    exact hG.symm
  have hsum := ((parallel_link P n b hb).balance h hm hf.allowed).2
  rw [hnames] at hsum
  simp only [List.map_cons, List.map_nil, List.sum_cons, List.sum_nil, add_zero] at hsum
  have bnd : ∀ d ∈ (b.frag n.name).nodes, d.kind = .link → 0 ≤ nameFlow F f d.name := fun d hd' hk =>
    (nameFlow_bounds h hf.allowed (mem_nodes h.compiled hm hG (hfr G hG ▸ hd')) hk).1
  have b1 := bnd ⟨(n.name, none), .link, flowData b.cost none none, none⟩ (by simp [hnodes]) rfl
  have b2 := bnd ⟨(n.name, some "soft_min"), .link, flowData lo.cost none lo.flow, none⟩ (by simp [hnodes]) rfl
  have b3 := bnd ⟨(n.name, some "soft_max"), .link, flowData hi'.cost none none, none⟩ (by simp [hnodes]) rfl
  simp only at b1 b2 b3
  have key : ∀ x y : Name × Option Metric × Option Metric,
      (⟨x.1, .link, flowData x.2.1 none x.2.2, none⟩ : Decl) ∈ (b.frag n.name).nodes →
      (⟨y.1, .link, flowData y.2.1 none y.2.2, none⟩ : Decl) ∈ (b.frag n.name).nodes →
      (nameFlow F f y.1 ≠ 0 → OwnRoom P F n st f ⟨x.1, .link, flowData x.2.1 none x.2.2, none⟩ ⟨y.1, .link, flowData y.2.1 none y.2.2, none⟩) →
      ∀ c c' : ℚ, ValueIs st.metric x.2.1 0 c → ValueIs st.metric y.2.1 0 c' → c < c' →
      ValueIs st.metric x.2.2 f64MAX (nameFlow F f x.1) ∨ nameFlow F f y.1 = 0 := by
    intro x y hx hy hroom c c' hc hc' hlt
    by_cases h0 : nameFlow F f y.1 = 0
    · exact Or.inr h0
    have mem : ∀ d : Decl, d ∈ (b.frag n.name).nodes → d.name ∈ b.names n.name := by
      intro d hd'
      rw [hnodes] at hd'
      rw [hnames]
      simp only [List.mem_cons, List.not_mem_nil, or_false] at hd'
      rcases hd' with rfl | rfl | rfl <;> simp
    rcases lane_order_room h hm (abreast_link P hb hx hy rfl rfl rfl rfl (mem _ hx) (mem _ hy)) hu hd hp hf hi (hroom h0) hc hc' hlt with
      h1 | h1 | h1
    exacts [Or.inl h1, Or.inr h1, Or.inr h1]
  refine key lane lane' ?_ ?_ ?_ c c' hc hc' hlt
  · rw [hnodes]
    simp only [List.mem_cons, List.not_mem_nil, or_false] at hl
    rcases hl with rfl | rfl | rfl <;> simp
  · rw [hnodes]
    simp only [List.mem_cons, List.not_mem_nil, or_false] at hl'
    rcases hl' with rfl | rfl | rfl <;> simp
  · intro h0 G' hG' a ha
    rw [hfr G' hG', haggs] at ha
    simp only [List.mem_cons, List.not_mem_nil, or_false] at ha hl hl'
    rcases ha with rfl | rfl
    · left
      intro s hs
      simp only [List.mem_singleton] at hs
      subst hs
      rcases hl with rfl | rfl | rfl <;> rcases hl' with rfl | rfl | rfl <;> simp
    · rcases hl' with rfl | rfl | rfl
      · rcases hl with rfl | rfl | rfl
        · left; simp
        · left; simp
        · right; right
          refine ⟨rfl, by simp, 0, rfl, ?_⟩
          simp only [List.map_cons, List.map_nil, List.sum_cons, List.sum_nil, add_zero]
          have := lt_of_le_of_ne b2 (Ne.symm h0)
          linarith
      · rcases hl with rfl | rfl | rfl
        · left; simp
        · left; simp
        · right; right
          refine ⟨rfl, by simp, 0, rfl, ?_⟩
          simp only [List.map_cons, List.map_nil, List.sum_cons, List.sum_nil, add_zero]
          have := lt_of_le_of_ne b1 (Ne.symm h0)
          linarith
      · rcases hl with rfl | rfl | rfl
        · right; left
          refine ⟨rfl, by simp, f64MAX, rfl, ?_⟩
          simp only [List.map_cons, List.map_nil, List.sum_cons, List.sum_nil, add_zero]
          refine lt_of_le_of_lt ?_ hfin
          rw [← hsum]
          linarith
        · right; left
          refine ⟨rfl, by simp, f64MAX, rfl, ?_⟩
          simp only [List.map_cons, List.map_nil, List.sum_cons, List.sum_nil, add_zero]
          refine lt_of_le_of_lt ?_ hfin
          rw [← hsum]
          linarith
        · left; simp

/-- **C75 (both soft limits, in order).** With costs rising from the soft minimum over the link's own to the soft maximum, the flow
fills the soft minimum and the rest passes at the link's own cost. The lane of the soft maximum is never used: the link's own lane has
no limit. -/
theorem C75_soft_both_order {b : LinkN} (hb : n.body = .link b) {lo hi' : Soft} (hlo : b.softMin = some lo) (hhi : b.softMax = some hi')
    (hfin : sent N F f n.name < f64MAX) {c c' c'' u : ℚ} (hc : ValueIs st.metric lo.cost 0 c) (hc' : ValueIs st.metric b.cost 0 c')
    (hc'' : ValueIs st.metric hi'.cost 0 c'') (h1 : c < c') (h2 : c' < c'') (hmax : ValueIs st.metric lo.flow f64MAX u) :
    nameFlow F f (n.name, some "soft_min") = min u (sent N F f n.name) ∧
      nameFlow F f (n.name, none) = sent N F f n.name - min u (sent N F f n.name) ∧ nameFlow F f (n.name, some "soft_max") = 0 := by
  have hsum := ((parallel_link P n b hb).balance h hm hf.allowed).2
  simp only [LinkN.names, hlo, hhi, Option.isSome_some, if_true, List.cons_append, List.nil_append,
    List.map_cons, List.map_nil, List.sum_cons, List.sum_nil, add_zero] at hsum
  obtain ⟨G, hG⟩ := frag_of_mem h.compiled hm
  have hfr : G = b.frag n.name := by
    unfold SNode.frag at hG
    simp only [hb, Except.ok.injEq] at hG
    exact hG.symm
  have bnd : ∀ d ∈ (b.frag n.name).nodes, d.kind = .link → 0 ≤ nameFlow F f d.name ∧
      Solver.AtMost st.metric d.data.maxFlow f64MAX (nameFlow F f d.name) := fun d hd' hk =>
    nameFlow_bounds h hf.allowed (mem_nodes h.compiled hm hG (hfr ▸ hd')) hk
  have b1 := bnd ⟨(n.name, none), .link, flowData b.cost none none, none⟩ (by simp [LinkN.frag, hlo, hhi]) rfl
  have b2 := bnd ⟨(n.name, some "soft_min"), .link, flowData lo.cost none lo.flow, none⟩ (by simp [LinkN.frag, hlo, hhi]) rfl
  have b3 := bnd ⟨(n.name, some "soft_max"), .link, flowData hi'.cost none none, none⟩ (by simp [LinkN.frag, hlo, hhi]) rfl
  obtain ⟨u', hu', hle⟩ := Solver.atMost_value.1 b2.2
  rw [Solver.valueIs_unique hu' hmax] at hle
  simp only at b1 b2 b3 hle
  have o1 := C75_soft_both h hm hu hd hp hf hi hb hlo hhi hfin (lane := ((n.name, none), b.cost, none))
    (lane' := ((n.name, some "soft_max"), hi'.cost, none)) (by simp) (by simp) hc' hc'' h2
  have o2 := C75_soft_both h hm hu hd hp hf hi hb hlo hhi hfin (lane := ((n.name, some "soft_min"), lo.cost, lo.flow))
    (lane' := ((n.name, none), b.cost, none)) (by simp) (by simp) hc hc' h1
  simp only at o1 o2
  have e1 : nameFlow F f (n.name, some "soft_max") = 0 := by
    refine o1.resolve_left (fun h3 => ?_)
    have h4 : nameFlow F f (n.name, none) = f64MAX := h3
    linarith [b2.1, b3.1]
  rcases o2 with h3 | h3
  · have h4 := Solver.valueIs_unique h3 hmax
    have h5 : u ≤ sent N F f n.name := by linarith [b1.1, b3.1]
    rw [min_eq_left h5]
    exact ⟨h4, by linarith, e1⟩
  · have h5 : nameFlow F f (n.name, some "soft_min") = sent N F f n.name := by linarith
    rw [min_eq_right (by linarith)]
    exact ⟨h5, by linarith, e1⟩

omit h hm hu hd hp hf hi in
theorem lanes_works (P : ParamNo) {b : WorksN} (hb : n.body = .works b) :
    Lanes P n ⟨(n.name, some "net_soft_min_flow"), .link, flowData b.softMinFlowCost none b.softMinFlow, none⟩
      ⟨(n.name, some "net_above_soft_min_flow"), .link, noData, none⟩ := by
  have hfr : ∀ G, n.frag P = .ok G → G = b.frag n.name := by
    intro G hG
    unfold SNode.frag at hG
    simp only [hb, Except.ok.injEq] at hG
    exact hG.symm
  refine .of ⟨rfl, rfl⟩ ⟨rfl, rfl⟩ ?_ ?_ ?_ ?_ ?_ ?_
  · intro G hG; rw [hfr G hG]
    unfold WorksN.frag
    cases b.loss with
    | none => simp
    | some l => cases hl : l.load <;> simp [hl]
  · intro s ns h hy
    have := inputConnectors_inputs h
    unfold SNode.inputs at this
    simp only [hb, Except.ok.injEq] at this
    subst this
    unfold grossNames at hy
    cases b.loss <;> simp at hy
  · intro s ns h _
    have := outputConnectors_outputs h (by simp [hb]) (by simp [hb]) (by simp [hb])
    unfold SNode.outputs at this
    simp only [hb, Except.ok.injEq] at this
    subst this; simp
  · intro G hG; rw [hfr G hG]
    unfold WorksN.frag
    cases b.loss with
    | none => simp
    | some l => cases hl : l.load <;> simp [hl]
  · intro G hG; rw [hfr G hG]
    unfold WorksN.frag
    cases b.loss with
    | none => simp
    | some l => cases hl : l.load <;> simp [hl]
  · intro c ns h
    unfold SNode.flowNodes at h
    simp only [hb] at h
    split at h <;> cases h <;> (cases b.loss <;> simp [grossNames])

/-- **C75 (treatment works).** Works with a soft minimum flow of negative cost send their net flow through the soft lane up to that
minimum. -/
theorem C75_works {b : WorksN} (hb : n.body = .works b) {c u : ℚ} (hc : ValueIs st.metric b.softMinFlowCost 0 c) (hneg : c < 0)
    (hmax : ValueIs st.metric b.softMinFlow f64MAX u) :
    nameFlow F f (n.name, some "net_soft_min_flow") = min u (sent N F f n.name) := by
  have hl := lanes_works P hb
  obtain ⟨G, hG⟩ := frag_of_mem h.compiled hm
  obtain ⟨mx, my⟩ := hl.owned G hG
  have hG' := hG
  unfold SNode.frag at hG'
  simp only [hb, Except.ok.injEq] at hG'
  have hE : sumWhere (flowOn F f) (fun e => decide (e.src ∈ [(n.name, some "net_soft_min_flow"), (n.name, some "net_above_soft_min_flow")])) G.edges = 0 := by
    apply sumWhere_none
    intro e he
    rw [← hG'] at he
    unfold WorksN.frag at he
    cases hlo : b.loss with
    | none => simp only [hlo] at he; simp only [List.mem_cons, List.not_mem_nil, or_false] at he; rcases he with rfl | rfl <;> simp
    | some l =>
      cases hl : l.load <;> simp only [hlo, hl] at he <;> simp only [List.mem_cons, List.not_mem_nil, or_false] at he <;>
        rcases he with rfl | rfl <;> simp
  have hs := outOf_outputs h.compiled hm hG f [(n.name, some "net_soft_min_flow"), (n.name, some "net_above_soft_min_flow")] (by simp) (by simp)
    (by
      intro s ns hcn c hc
      have := outputConnectors_outputs hcn (by simp [hb]) (by simp [hb]) (by simp [hb])
      unfold SNode.outputs at this
      simp only [hb, Except.ok.injEq] at this
      exact this ▸ hc)
  rw [hE, zero_add] at hs
  have e1 := nameFlow_eq (names_nodup h.built) f (mem_nodes h.compiled hm hG mx)
  have e2 := nameFlow_eq (names_nodup h.built) f (mem_nodes h.compiled hm hG my)
  simp only [coreFlow] at e1 e2
  exact two_lanes h hm hf hl hmax rfl (by simp only; rw [e1, e2]; simpa using hs) (lane_order h hm hl hu hd hp hf hi hc (c' := 0) rfl hneg)

omit h hm hu hd hp hf hi in
theorem lanes_abstraction (P : ParamNo) {b : AbstractionN} (hb : n.body = .abstraction b) {m : Metric} (hmrf : b.mrf = some m) :
    Lanes P n ⟨(n.name, some "mrf"), .link, flowData b.mrfCost none (some m), none⟩ ⟨(n.name, some "bypass"), .link, noData, none⟩ := by
  have hfr : ∀ G, n.frag P = .ok G → b.frag n.name = .ok G := by
    intro G hG
    unfold SNode.frag at hG
    simp only [hb] at hG
    exact hG
  have hfr' : ∀ G, n.frag P = .ok G → G = { nodes := [⟨(n.name, some "mrf"), .link, flowData b.mrfCost none (some m), none⟩,
      ⟨(n.name, some "bypass"), .link, noData, none⟩, ⟨(n.name, some "abstraction"), .link, flowData b.absCost b.absMinFlow b.absMaxFlow, none⟩] } := by
    intro G hG
    have := hfr G hG
    unfold AbstractionN.frag at this
    simp only [hmrf, Except.ok.injEq] at this
    exact this.symm
  refine .of ⟨rfl, rfl⟩ ⟨rfl, rfl⟩ ?_ ?_ ?_ ?_ ?_ ?_
  · intro G hG; rw [hfr' G hG]; simp
  · intro s ns h _
    have := inputConnectors_inputs h
    unfold SNode.inputs at this
    simp only [hb, Except.ok.injEq] at this
    subst this; simp [hmrf]
  · intro s ns h hy
    unfold SNode.outputConnectors at h
    simp only [hb] at h
    split at h
    · cases h; simp [hmrf]
    · cases h; simp [hmrf]
    · cases h; simp at hy
    · cases h
  · intro G hG; rw [hfr' G hG]; simp
  · intro G hG; rw [hfr' G hG]; simp
  · intro c ns h
    unfold SNode.flowNodes at h
    simp only [hb] at h
    split at h <;> cases h <;> simp [hmrf]

/-- **C75 (abstraction).** With a negative cost of the residual flow, an abstraction sends what continues down the river as residual
flow up to the latter's limit. -/
theorem C75_abstraction {b : AbstractionN} (hb : n.body = .abstraction b) {m : Metric} (hmrf : b.mrf = some m) {c u : ℚ}
    (hc : ValueIs st.metric b.mrfCost 0 c) (hneg : c < 0) (hmax : m.get st.metric = some u) :
    nameFlow F f (n.name, some "mrf") = min u (sentVia N F f n.name (fun s => s ≠ some .abstraction)) := by
  have hl := lanes_abstraction P hb hmrf
  obtain ⟨w, hw, hv⟩ := (C66_abstraction h hf.allowed hm hb).2
  obtain ⟨G, hG⟩ := frag_of_mem h.compiled hm
  obtain ⟨mx, my⟩ := hl.owned G hG
  have e1 := nameFlow_eq (names_nodup h.built) f (mem_nodes h.compiled hm hG mx)
  have e2 := nameFlow_eq (names_nodup h.built) f (mem_nodes h.compiled hm hG my)
  simp only [coreFlow] at e1 e2
  have hmet : n.metric (some .outflow) = .ok (.multiNodeInFlow [(n.name, some "mrf"), (n.name, some "bypass")]) := by
    unfold SNode.metric
    simp [hb, hmrf, SNode.flowNodes, Except.map]
  obtain ⟨w', hw', hv'⟩ := reports_in h hmet f (by
    intro c hc
    simp only [List.mem_cons, List.not_mem_nil, or_false] at hc
    rcases hc with rfl | rfl
    · exact ⟨_, mem_nodes h.compiled hm hG mx, rfl⟩
    · exact ⟨_, mem_nodes h.compiled hm hG my, rfl⟩)
  rw [hw, Except.ok.injEq] at hw'
  subst hw'
  rw [hv, Option.some.injEq] at hv'
  have b1 := link_balance h.built hf.allowed (mem_nodes h.compiled hm hG mx) rfl
  have b2 := link_balance h.built hf.allowed (mem_nodes h.compiled hm hG my) rfl
  simp only at b1 b2
  exact two_lanes h hm hf hl hmax rfl (by simp only; rw [e1, e2, hv', ← b1, ← b2]; simp) (lane_order h hm hl hu hd hp hf hi hc (c' := 0) rfl hneg)

end

end Verif.Schema
