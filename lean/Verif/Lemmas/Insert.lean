import Verif.Spec.Insert
import Verif.Props.Reorder
import Verif.Lemmas.Merit

/-! # Lemmas for C110 -/

namespace Verif.Insert

open Verif.Solver Verif.Topology Verif.Reorder
open Verif.State (NodeKind)

variable {b b' : Builder} {u v g : Name} {es : List EdgeDecl} {M M' : Model} {st : StepState} {φ φ' : EdgeDecl → ℚ}

theorem fresh (h : Inserted b b' u v g es) (hv : Valid b') : g ∉ b.nodes.map (·.name) := by
  have := hv.nodes
  rw [h.nodes, List.map_append, List.nodup_append] at this
  intro hg
  exact this.2.2 g hg g (by simp) rfl

/-- No edge of the network before is at the link. -/
structure Off (u v g : Name) (es : List EdgeDecl) : Prop where
  u : u ≠ g
  v : v ≠ g
  src : ∀ e ∈ es, e.src ≠ g
  dst : ∀ e ∈ es, e.dst ≠ g

theorem off (h : Inserted b b' u v g es) (hv : Valid b) (hf : g ∉ b.nodes.map (·.name)) : Off u v g es := by
  have key : ∀ e ∈ b.edges, e.src ≠ g ∧ e.dst ≠ g := fun e he =>
    ⟨fun e1 => hf (e1 ▸ (hv.ends e he).1), fun e1 => hf (e1 ▸ (hv.ends e he).2)⟩
  have h1 := key ⟨u, v⟩ (h.edges.mem_iff.2 List.mem_cons_self)
  exact ⟨h1.1, h1.2, fun e he => (key e (h.edges.mem_iff.2 (List.mem_cons_of_mem _ he))).1,
    fun e he => (key e (h.edges.mem_iff.2 (List.mem_cons_of_mem _ he))).2⟩

theorem sum_perm {l l' : List EdgeDecl} (h : l.Perm l') (φ : EdgeDecl → ℚ) (p : EdgeDecl → Bool) :
    ((l.filter p).map φ).sum = ((l'.filter p).map φ).sum := ((h.filter p).map φ).sum_eq

theorem others_sum (ht : Through u v g es φ φ') (p : EdgeDecl → Bool) : ((es.filter p).map φ').sum = ((es.filter p).map φ).sum := by
  congr 1
  exact List.map_congr_left fun e he => ht.others e (List.mem_filter.1 he).1

theorem into_ins (h : Inserted b b' u v g es) (ht : Through u v g es φ φ') {x : Name} (hx : x ≠ g) :
    ((b'.edges.filter fun e => e.dst = x).map φ').sum = ((b.edges.filter fun e => e.dst = x).map φ).sum := by
  rw [sum_perm h.edges', sum_perm h.edges, List.filter_cons_of_neg (by simpa using hx.symm)]
  by_cases hv : v = x
  · rw [List.filter_cons_of_pos (by simpa using hv), List.filter_cons_of_pos (by simpa using hv), List.map_cons, List.map_cons,
      List.sum_cons, List.sum_cons, others_sum ht, ht.down]
  · rw [List.filter_cons_of_neg (by simpa using hv), List.filter_cons_of_neg (by simpa using hv), others_sum ht]

theorem from_ins (h : Inserted b b' u v g es) (ht : Through u v g es φ φ') {x : Name} (hx : x ≠ g) :
    ((b'.edges.filter fun e => e.src = x).map φ').sum = ((b.edges.filter fun e => e.src = x).map φ).sum := by
  rw [sum_perm h.edges', sum_perm h.edges]
  by_cases hu : u = x
  · rw [List.filter_cons_of_pos (by simpa using hu), List.filter_cons_of_neg (by simpa using hx.symm),
      List.filter_cons_of_pos (by simpa using hu), List.map_cons, List.map_cons, List.sum_cons, List.sum_cons, others_sum ht, ht.up]
  · rw [List.filter_cons_of_neg (by simpa using hu), List.filter_cons_of_neg (by simpa using hx.symm),
      List.filter_cons_of_neg (by simpa using hu), others_sum ht]

theorem into_link (h : Inserted b b' u v g es) (ho : Off u v g es) (φ' : EdgeDecl → ℚ) :
    ((b'.edges.filter fun e => e.dst = g).map φ').sum = φ' ⟨u, g⟩ := by
  rw [sum_perm h.edges', List.filter_cons_of_pos (by simp), List.filter_cons_of_neg (by simpa using ho.v),
    List.filter_eq_nil_iff.2 (by simpa using ho.dst)]
  simp

theorem from_link (h : Inserted b b' u v g es) (ho : Off u v g es) (φ' : EdgeDecl → ℚ) :
    ((b'.edges.filter fun e => e.src = g).map φ').sum = φ' ⟨g, v⟩ := by
  rw [sum_perm h.edges', List.filter_cons_of_neg (by simpa using ho.u), List.filter_cons_of_pos (by simp),
    List.filter_eq_nil_iff.2 (by simpa using ho.src)]
  simp

theorem named_ins (h : Inserted b b' u v g es) (ht : Through u v g es φ φ') {d : NodeDecl} (hd : d.name ≠ g) : Reorder.named b' φ' d = Reorder.named b φ d := by
  unfold Reorder.named
  cases d.kind <;> simp only [into_ins h ht hd, from_ins h ht hd]

/-- Nodes after, as nodes before and the link. -/
theorem forall_ins (h : Inserted b b' u v g es) (P : Nat → NodeDecl → Prop) :
    (∀ i d, b'.nodes[i]? = some d → P i d) ↔ (∀ i d, b.nodes[i]? = some d → P i d) ∧ P b.nodes.length ⟨g, .link⟩ := by
  rw [h.nodes]
  constructor
  · intro hp
    refine ⟨fun i d hi => hp i d ?_, hp _ _ (by simp)⟩
    rw [List.getElem?_append_left (List.getElem?_eq_some_iff.1 hi).1]
    exact hi
  · rintro ⟨hp, hl⟩ i d hi
    by_cases hlt : i < b.nodes.length
    · rw [List.getElem?_append_left hlt] at hi
      exact hp i d hi
    · rw [List.getElem?_append_right (not_lt.1 hlt)] at hi
      have h0 := (List.getElem?_eq_some_iff.1 hi).1
      rw [List.length_singleton] at h0
      have : i = b.nodes.length := by omega
      subst this
      simp at hi
      subst hi
      exact hl

theorem forall_after (h : Inserted b b' u v g es) (hb : b.build = .ok M.net) (hb' : b'.build = .ok M'.net) (P P' : TNode → Prop)
    (hP : ∀ i d, b.nodes[i]? = some d → (P' (nodeOf b' i d) ↔ P (nodeOf b i d))) :
    (∀ n ∈ M'.net.nodes, P' n) ↔ (∀ n ∈ M.net.nodes, P n) ∧ P' (nodeOf b' b.nodes.length ⟨g, .link⟩) := by
  rw [forall_nodes' hb', forall_nodes' hb, forall_ins h fun i d => P' (nodeOf b' i d)]
  refine and_congr_left fun _ => forall_congr' fun i => forall_congr' fun d => forall_congr' fun hd => hP i d hd

theorem name_ne (hf : g ∉ b.nodes.map (·.name)) {i : Nat} {d : NodeDecl} (hd : b.nodes[i]? = some d) : d.name ≠ g :=
  fun e => hf (List.mem_map.2 ⟨d, List.mem_of_getElem? hd, e⟩)

theorem nodeFlow_ins (h : Inserted b b' u v g es) (hf : g ∉ b.nodes.map (·.name)) (ht : Through u v g es φ φ') {i : Nat} {d : NodeDecl}
    (hd : b.nodes[i]? = some d) : nodeFlow (along b' φ') (nodeOf b' i d) = nodeFlow (along b φ) (nodeOf b i d) := by
  rw [nodeFlow_named, nodeFlow_named, named_ins h ht (name_ne hf hd)]

theorem nodeFlow_link (h : Inserted b b' u v g es) (ho : Off u v g es) (φ' : EdgeDecl → ℚ) (k : Nat) :
    nodeFlow (along b' φ') (nodeOf b' k ⟨g, .link⟩) = φ' ⟨g, v⟩ := by
  rw [nodeFlow_named]
  exact from_link h ho φ'

theorem nodes_length (hb : b.build = .ok M.net) : M.net.nodes.length = b.nodes.length := (C49_topology b _ hb).1

theorem at_ins (h : Inserted b b' u v g es) {i : Nat} (hi : i < b.nodes.length) : b'.nodes[i]? = b.nodes[i]? := by
  rw [h.nodes, List.getElem?_append_left hi]

theorem flowAt_ins (h : Inserted b b' u v g es) (hb : b.build = .ok M.net) (hb' : b'.build = .ok M'.net) (hf : g ∉ b.nodes.map (·.name))
    (ht : Through u v g es φ φ') {i : Nat} (hi : i < M.net.nodes.length) : flowAt M'.net (along b' φ') i = flowAt M.net (along b φ) i := by
  rw [nodes_length hb] at hi
  unfold flowAt
  rw [nodes_at hb', nodes_at hb, at_ins h hi, List.getElem?_eq_getElem hi]
  simp only [Option.map_some, Option.getD_some]
  exact nodeFlow_ins h hf ht (List.getElem?_eq_getElem hi)

theorem setFlow_ins (h : Inserted b b' u v g es) (hb : b.build = .ok M.net) (hb' : b'.build = .ok M'.net) (hf : g ∉ b.nodes.map (·.name))
    (ht : Through u v g es φ φ') {l : List Nat} (hl : ∀ i ∈ l, i < M.net.nodes.length) :
    setFlow (flowAt M'.net (along b' φ')) l = setFlow (flowAt M.net (along b φ)) l := by
  unfold setFlow
  congr 1
  exact List.map_congr_left fun i hi => flowAt_ins h hb hb' hf ht (hl i hi)

theorem aggFlow_ins (h : Inserted b b' u v g es) (hb : b.build = .ok M.net) (hb' : b'.build = .ok M'.net) (hf : g ∉ b.nodes.map (·.name))
    (hM : M.Valid) (ht : Through u v g es φ φ') {a : AggNode} (ha : a ∈ M.aggs) :
    aggFlow M'.net (along b' φ') a = aggFlow M.net (along b φ) a := by
  unfold aggFlow
  congr 1
  exact List.map_congr_left fun l hl => setFlow_ins h hb hb' hf ht (hM.aggs a ha l hl)

theorem vsUse_ins (h : Inserted b b' u v g es) (hb : b.build = .ok M.net) (hb' : b'.build = .ok M'.net) (hf : g ∉ b.nodes.map (·.name))
    (hM : M.Valid) (ht : Through u v g es φ φ') {w : VStore} (hw : w ∈ M.vs) :
    vsUse M'.net (along b' φ') w = vsUse M.net (along b φ) w := by
  unfold vsUse
  congr 1
  exact List.map_congr_left fun p hp => by rw [flowAt_ins h hb hb' hf ht (hM.vs w hw p hp)]

theorem edges_ins (h : Inserted b b' u v g es) (hb : b.build = .ok M.net) (hb' : b'.build = .ok M'.net) (ht : Through u v g es φ φ')
    (P : ℚ → Prop) : (∀ e < M'.net.edges.length, P (along b' φ' e)) ↔ ∀ e < M.net.edges.length, P (along b φ e) := by
  rw [forall_edges hb' φ' P, forall_edges hb φ P]
  simp only [h.edges'.mem_iff, h.edges.mem_iff, List.forall_mem_cons, ht.up, ht.down]
  constructor
  · rintro ⟨h1, -, h2⟩
    exact ⟨h1, fun e he => ht.others e he ▸ h2 e he⟩
  · rintro ⟨h1, h2⟩
    exact ⟨h1, h1, fun e he => (ht.others e he).symm ▸ h2 e he⟩

theorem balanced_link (h : Inserted b b' u v g es) (hb' : b'.build = .ok M'.net) (ho : Off u v g es)
    (hB : Balanced M'.net (along b' φ')) : φ' ⟨u, g⟩ = φ' ⟨g, v⟩ := by
  have := (forall_ins h _).1 ((forall_nodes' hb' _).1 hB)
  have := this.2 rfl
  simp only [nodeOf, into_sum, from_sum] at this
  rwa [into_link h ho, from_link h ho] at this

theorem balanced_ins (h : Inserted b b' u v g es) (hb : b.build = .ok M.net) (hb' : b'.build = .ok M'.net) (hf : g ∉ b.nodes.map (·.name))
    (ho : Off u v g es) (ht : Through u v g es φ φ') : Balanced M'.net (along b' φ') ↔ Balanced M.net (along b φ) := by
  unfold Balanced
  rw [forall_after h hb hb' (fun n => n.kind = .link → (n.incoming.map (along b φ)).sum = (n.outgoing.map (along b φ)).sum)
    (fun n => n.kind = .link → (n.incoming.map (along b' φ')).sum = (n.outgoing.map (along b' φ')).sum)]
  · refine and_iff_left fun _ => ?_
    simp only [nodeOf, into_sum, from_sum]
    rw [into_link h ho, from_link h ho, ht.up, ht.down]
  · intro i d hd
    have hn := name_ne hf hd
    simp only [nodeOf, into_sum, from_sum]
    rw [into_ins h ht hn, from_ins h ht hn]

theorem data_at (hm : SameElse b M M') {i : Nat} {d : NodeDecl} (hd : b.nodes[i]? = some d) : M'.data i = M.data i :=
  hm.data i (List.getElem?_eq_some_iff.1 hd).1

theorem inGroup_ins (hm : SameElse b M M') (i : Nat) : InGroup M' i ↔ InGroup M i := by
  unfold InGroup IsGroup
  rw [hm.aggs]

theorem isGroup_ins (hm : SameElse b M M') (s : List Nat) : IsGroup M' s ↔ IsGroup M s := by
  unfold IsGroup
  rw [hm.aggs]

theorem nodeOk_ins (h : Inserted b b' u v g es) (hm : SameElse b M M') (hf : g ∉ b.nodes.map (·.name)) (ht : Through u v g es φ φ')
    {i : Nat} {d : NodeDecl} (hd : b.nodes[i]? = some d) :
    NodeOk M' st (along b' φ') (nodeOf b' i d) ↔ NodeOk M st (along b φ) (nodeOf b i d) := by
  unfold NodeOk
  rw [nodeFlow_ins h hf ht hd]
  simp only [nodeOf, data_at hm hd]
  exact Iff.rfl

theorem bounds_ins (h : Inserted b b' u v g es) (hm : SameElse b M M') (hb : b.build = .ok M.net) (hb' : b'.build = .ok M'.net)
    {i : Nat} (hi : i < M.net.nodes.length) (lo hi' : ℚ) : ConstantBounds M' i lo hi' ↔ ConstantBounds M i lo hi' := by
  rw [nodes_length hb] at hi
  unfold ConstantBounds
  rw [nodes_at hb', nodes_at hb, at_ins h hi, hm.data i hi, List.getElem?_eq_getElem hi]
  simp [nodeOf]

theorem choice_ins (h : Inserted b b' u v g es) (hm : SameElse b M M') (hb : b.build = .ok M.net) (hb' : b'.build = .ok M'.net)
    (hf : g ∉ b.nodes.map (·.name)) (hM : M.Valid) (ht : Through u v g es φ φ') (on : List Nat → Bool) :
    Choice M' (along b' φ') on ↔ Choice M (along b φ) on := by
  have hr : ∀ s, IsGroup M s → ∀ i ∈ s, i < M.net.nodes.length := fun s ⟨a, ha, _, _, _, hs⟩ => hM.aggs a ha s hs
  constructor
  · intro c
    refine ⟨fun a ha => c.count a (hm.aggs ▸ ha), fun s hs ho i hi => ?_, fun s hs ho i hi lo hi' hc => ?_⟩
    · rw [← flowAt_ins h hb hb' hf ht (hr s hs i hi)]
      exact c.idle s ((isGroup_ins hm s).2 hs) ho i hi
    · rw [← flowAt_ins h hb hb' hf ht (hr s hs i hi)]
      exact c.busy s ((isGroup_ins hm s).2 hs) ho i hi lo hi' ((bounds_ins h hm hb hb' (hr s hs i hi) lo hi').2 hc)
  · intro c
    refine ⟨fun a ha => c.count a (hm.aggs ▸ ha), fun s hs ho i hi => ?_, fun s hs ho i hi lo hi' hc => ?_⟩
    all_goals have hs' := (isGroup_ins hm s).1 hs
    · rw [flowAt_ins h hb hb' hf ht (hr s hs' i hi)]
      exact c.idle s hs' ho i hi
    · rw [flowAt_ins h hb hb' hf ht (hr s hs' i hi)]
      exact c.busy s hs' ho i hi lo hi' ((bounds_ins h hm hb hb' (hr s hs' i hi) lo hi').1 hc)

theorem holds_ins (h : Inserted b b' u v g es) (hb : b.build = .ok M.net) (hb' : b'.build = .ok M'.net) (hf : g ∉ b.nodes.map (·.name))
    (hM : M.Valid) (ht : Through u v g es φ φ') {a : AggNode} (ha : a ∈ M.aggs) {F : Factors} {σ : Nat → Option ℚ} {ps : List Pair}
    (hp : F.pairs a.nodes σ = .ok ps) {p : Pair} (hpp : p ∈ ps) :
    p.Holds (flowAt M'.net (along b' φ')) ↔ p.Holds (flowAt M.net (along b φ)) := by
  obtain ⟨h0, h1⟩ := pairs_nodes F a.nodes σ ps hp p hpp
  unfold Pair.Holds
  rw [setFlow_ins h hb hb' hf ht (hM.aggs a ha _ h0), setFlow_ins h hb hb' hf ht (hM.aggs a ha _ h1)]

theorem allowed_ins (h : Inserted b b' u v g es) (hm : SameElse b M M') (hb : b.build = .ok M.net) (hb' : b'.build = .ok M'.net)
    (hf : g ∉ b.nodes.map (·.name)) (ho : Off u v g es) (hM : M.Valid) (ht : Through u v g es φ φ') (hmax : φ ⟨u, v⟩ ≤ f64MAX) :
    AllowedChoice M' st (along b' φ') ↔ AllowedChoice M st (along b φ) := by
  have e1 := edges_ins (M := M) (M' := M') h hb hb' ht fun q => 0 ≤ q
  have e2 := balanced_ins h hb hb' hf ho ht
  have e3 := forall_after h hb hb' (fun n => ¬ InGroup M n.index → NodeOk M st (along b φ) n)
    (fun n => ¬ InGroup M' n.index → NodeOk M' st (along b' φ') n) fun i d hd => by
      rw [inGroup_ins hm, nodeOk_ins h hm hf ht hd]
      exact Iff.rfl
  have ev : ∀ (k : Nat) (w : VStore), M.vs[k]? = some w → vsUse M'.net (along b' φ') w = vsUse M.net (along b φ) w :=
    fun k w hw => vsUse_ins h hb hb' hf hM ht (List.mem_of_getElem? hw)
  constructor
  · intro c
    refine ⟨e1.1 c.nonneg, e2.1 c.balanced, (e3.1 c.nodes).1, fun a ha => ?_, fun a ha F hF => ?_, fun k w hw hact => ?_, ?_⟩
    · rw [← aggFlow_ins h hb hb' hf hM ht ha]
      exact c.aggs a (hm.aggs ▸ ha)
    · obtain ⟨ps, hp, hh⟩ := c.factors a (hm.aggs ▸ ha) F hF
      exact ⟨ps, hp, fun p hpp => (holds_ins h hb hb' hf hM ht ha hp hpp).1 (hh p hpp)⟩
    · rw [← ev k w hw]
      exact c.vs k w (hm.vs ▸ hw) hact
    · obtain ⟨on, hon⟩ := c.choice
      exact ⟨on, (choice_ins h hm hb hb' hf hM ht on).1 hon⟩
  · intro c
    refine ⟨e1.2 c.nonneg, e2.2 c.balanced, e3.2 ⟨c.nodes, fun _ => ?_⟩, fun a ha => ?_, fun a ha F hF => ?_, fun k w hw hact => ?_, ?_⟩
    · unfold NodeOk
      rw [if_neg (by simp [nodeOf]), nodeFlow_link h ho, ht.down]
      simp only [nodeOf, hm.minFlow, hm.maxFlow]
      exact ⟨(forall_edges hb φ fun q => 0 ≤ q).1 c.nonneg _ (h.edges.mem_iff.2 List.mem_cons_self), hmax⟩
    · rw [hm.aggs] at ha
      rw [aggFlow_ins h hb hb' hf hM ht ha]
      exact c.aggs a ha
    · rw [hm.aggs] at ha
      obtain ⟨ps, hp, hh⟩ := c.factors a ha F hF
      exact ⟨ps, hp, fun p hpp => (holds_ins h hb hb' hf hM ht ha hp hpp).2 (hh p hpp)⟩
    · rw [hm.vs] at hw
      rw [ev k w hw]
      exact c.vs k w hw hact
    · obtain ⟨on, hon⟩ := c.choice
      exact ⟨on, (choice_ins h hm hb hb' hf hM ht on).2 hon⟩

theorem within_ins (h : Inserted b b' u v g es) (hm : SameElse b M M') (hb : b.build = .ok M.net) (hb' : b'.build = .ok M'.net)
    (hf : g ∉ b.nodes.map (·.name)) (hM : M.Valid) (ht : Through u v g es φ φ') (big negBig : ℚ) :
    WithinLimits M' big negBig st (along b' φ') ↔ WithinLimits M big negBig st (along b φ) := by
  have e1 := edges_ins (M := M) (M' := M') h hb hb' ht fun q => q ≤ big
  have e3 := forall_after h hb hb' (fun n => constBounds n (M.data n.index) = none → negBig ≤ nodeFlow (along b φ) n ∧ nodeFlow (along b φ) n ≤ big)
    (fun n => constBounds n (M'.data n.index) = none → negBig ≤ nodeFlow (along b' φ') n ∧ nodeFlow (along b' φ') n ≤ big) fun i d hd => by
      rw [nodeFlow_ins h hf ht hd]
      unfold constBounds
      simp only [nodeOf, data_at hm hd]
  have hl : constBounds (nodeOf b' b.nodes.length ⟨g, .link⟩) (M'.data (nodeOf b' b.nodes.length ⟨g, .link⟩).index) ≠ none := by
    unfold constBounds
    simp [nodeOf, hm.minFlow, hm.maxFlow, constOr]
  have e4 : (∀ a ∈ M'.aggs, negBig ≤ aggFlow M'.net (along b' φ') a ∧ aggFlow M'.net (along b' φ') a ≤ big) ↔
      ∀ a ∈ M.aggs, negBig ≤ aggFlow M.net (along b φ) a ∧ aggFlow M.net (along b φ) a ≤ big := by
    rw [hm.aggs]
    exact forall_congr' fun a => forall_congr' fun ha => by rw [aggFlow_ins h hb hb' hf hM ht ha]
  have e5 : (∀ w ∈ M'.vs, negBig ≤ -vsUse M'.net (along b' φ') w ∧ -vsUse M'.net (along b' φ') w ≤ big) ↔
      ∀ w ∈ M.vs, negBig ≤ -vsUse M.net (along b φ) w ∧ -vsUse M.net (along b φ) w ≤ big := by
    rw [hm.vs]
    exact forall_congr' fun w => forall_congr' fun hw => by rw [vsUse_ins h hb hb' hf hM ht hw]
  exact ⟨fun c => ⟨e1.1 c.edges, (e3.1 c.nodes).1, e4.1 c.aggs, e5.1 c.vs, hm.aggs ▸ c.factors⟩,
    fun c => ⟨e1.2 c.edges, e3.2 ⟨c.nodes, fun hc => absurd hc hl⟩, e4.2 c.aggs, e5.2 c.vs, hm.aggs.symm ▸ c.factors⟩⟩

theorem cost_ins (h : Inserted b b' u v g es) (hm : SameElse b M M') (σ : Nat → Option ℚ) {i : Nat} {d : NodeDecl}
    (hd : b.nodes[i]? = some d) (c : ℚ) : CostIs M' σ (nodeOf b' i d) c ↔ CostIs M σ (nodeOf b i d) c := by
  unfold CostIs VsCostsAre
  simp only [nodeOf, data_at hm hd, hm.vs, storagesOf, h.storages]

theorem cost_link (hm : SameElse b M M') (σ : Nat → Option ℚ) : CostIs M' σ (nodeOf b' b.nodes.length ⟨g, .link⟩) 0 := by
  refine ⟨0, ?_, ?_⟩
  · simp only [nodeOf, hm.cost]; rfl
  · simp only [nodeOf, hm.costAgg]

theorem used_ins (h : Inserted b b' u v g es) (hf : g ∉ b.nodes.map (·.name)) {i : Nat} {d : NodeDecl} (hd : b.nodes[i]? = some d) :
    (nodeOf b' i d).incoming ≠ [] ∨ (nodeOf b' i d).outgoing ≠ [] ↔ (nodeOf b i d).incoming ≠ [] ∨ (nodeOf b i d).outgoing ≠ [] := by
  have hn := (name_ne hf hd).symm
  simp only [nodeOf, ne_eq, into_nil, from_nil, h.edges'.mem_iff, h.edges.mem_iff, List.forall_mem_cons, hn, not_false_eq_true, true_and]

theorem defined_ins (h : Inserted b b' u v g es) (hm : SameElse b M M') (hb : b.build = .ok M.net) (hb' : b'.build = .ok M'.net)
    (hf : g ∉ b.nodes.map (·.name)) : Defined M' st ↔ Defined M st := by
  have e1 := forall_after h hb hb' (fun n => n.incoming ≠ [] ∨ n.outgoing ≠ [] → ∃ c, CostIs M st.metric n c)
    (fun n => n.incoming ≠ [] ∨ n.outgoing ≠ [] → ∃ c, CostIs M' st.metric n c) fun i d hd => by
      rw [used_ins h hf hd]
      simp only [cost_ins h hm st.metric hd]
  have e2 := forall_after h hb hb'
    (fun n => n.kind ≠ .storage → (∃ v, ValueIs st.metric (M.data n.index).minFlow 0 v) ∧ (∃ v, ValueIs st.metric (M.data n.index).maxFlow f64MAX v))
    (fun n => n.kind ≠ .storage → (∃ v, ValueIs st.metric (M'.data n.index).minFlow 0 v) ∧ (∃ v, ValueIs st.metric (M'.data n.index).maxFlow f64MAX v))
    fun i d hd => by simp only [nodeOf, data_at hm hd]
  have e3 := forall_after h hb hb'
    (fun n => n.kind = .storage → (∃ v, st.volume n.index = some v) ∧
        (∃ v, ValueIs st.metric (M.data n.index).minVolume 0 v) ∧ (∃ v, ValueIs st.metric (M.data n.index).maxVolume f64MAX v))
    (fun n => n.kind = .storage → (∃ v, st.volume n.index = some v) ∧
        (∃ v, ValueIs st.metric (M'.data n.index).minVolume 0 v) ∧ (∃ v, ValueIs st.metric (M'.data n.index).maxVolume f64MAX v))
    fun i d hd => by simp only [nodeOf, data_at hm hd]
  constructor
  · intro c
    exact ⟨(e1.1 c.costs).1, (e2.1 c.flows).1, (e3.1 c.volumes).1, hm.aggs ▸ c.aggs, hm.aggs ▸ c.factors, hm.vs ▸ c.vs⟩
  · intro c
    refine ⟨e1.2 ⟨c.costs, fun _ => ⟨0, cost_link hm _⟩⟩, e2.2 ⟨c.flows, fun _ => ?_⟩, e3.2 ⟨c.volumes, fun hk => ?_⟩, hm.aggs.symm ▸ c.aggs,
      hm.aggs.symm ▸ c.factors, hm.vs.symm ▸ c.vs⟩
    · simp only [nodeOf, hm.minFlow, hm.maxFlow]
      exact ⟨⟨0, rfl⟩, ⟨f64MAX, rfl⟩⟩
    · simp [nodeOf] at hk

theorem total_ins (h : Inserted b b' u v g es) (hb : b.build = .ok M.net) (hb' : b'.build = .ok M'.net) (hf : g ∉ b.nodes.map (·.name))
    (ht : Through u v g es φ φ') (c : Name → ℚ) (hc : c g = 0) :
    totalCost M' (fun n => c n.name) (along b' φ') = totalCost M (fun n => c n.name) (along b φ) := by
  rw [nodes_sum hb, nodes_sum hb', h.nodes, List.map_append, List.sum_append]
  simp only [List.map_cons, List.map_nil, hc, zero_mul, List.sum_cons, List.sum_nil, add_zero]
  congr 1
  refine List.map_congr_left fun d hd => ?_
  rw [named_ins h ht fun e => hf (List.mem_map.2 ⟨d, hd, e⟩)]

/-! ## Chains of edges and factors -/

/-- The edge before that an edge after comes from. -/
def before (u v g : Name) (e : EdgeDecl) : EdgeDecl := if e.src = g ∨ e.dst = g then ⟨u, v⟩ else e

/-- Its position. -/
def back (b b' : Builder) (u v g : Name) (k : Nat) : Nat := ((b'.edges[k]?).map fun e => b.edges.idxOf (before u v g e)).getD 0

theorem before_in (h : Inserted b b' u v g es) (ho : Off u v g es) {e : EdgeDecl} (he : e ∈ b'.edges) :
    e = ⟨u, g⟩ ∧ before u v g e = ⟨u, v⟩ ∨ e = ⟨g, v⟩ ∧ before u v g e = ⟨u, v⟩ ∨ e ∈ es ∧ before u v g e = e := by
  rcases List.mem_cons.1 (h.edges'.mem_iff.1 he) with rfl | he
  · left; simp [before]
  rcases List.mem_cons.1 he with rfl | he
  · right; left; simp [before]
  · right; right; exact ⟨he, by simp [before, ho.src e he, ho.dst e he]⟩

theorem before_mem (h : Inserted b b' u v g es) (ho : Off u v g es) {e : EdgeDecl} (he : e ∈ b'.edges) : before u v g e ∈ b.edges := by
  rw [h.edges.mem_iff]
  rcases before_in h ho he with ⟨-, e1⟩ | ⟨-, e1⟩ | ⟨h1, e1⟩ <;> rw [e1]
  · exact List.mem_cons_self
  · exact List.mem_cons_self
  · exact List.mem_cons_of_mem _ h1

theorem back_at (h : Inserted b b' u v g es) (ho : Off u v g es) {k : Nat} {e : EdgeDecl} (hk : b'.edges[k]? = some e) :
    b.edges[back b b' u v g k]? = some (before u v g e) := by
  have hm := before_mem h ho (List.mem_of_getElem? hk)
  simp only [back, hk, Option.map_some, Option.getD_some]
  rw [List.getElem?_eq_getElem (List.idxOf_lt_length_of_mem hm), List.getElem_idxOf]

theorem positions_back (h : Inserted b b' u v g es) (hv : Valid b) (hv' : Valid b') (ho : Off u v g es) (p : EdgeDecl → Bool)
    (h1 : ∀ e ∈ b'.edges, p e = true → p (before u v g e) = true)
    (h2 : ∀ e ∈ b.edges, p e = true → ∃ e' ∈ b'.edges, p e' = true ∧ before u v g e' = e)
    (h3 : ∀ e ∈ b'.edges, ∀ e' ∈ b'.edges, p e = true → p e' = true → before u v g e = before u v g e' → e = e') :
    ((positions b' p).map (back b b' u v g)).Perm (positions b p) := by
  have hnd : ((positions b' p).map (back b b' u v g)).Nodup := by
    refine List.Nodup.map_on (fun x hx y hy hxy => ?_) (positions_nodup b' p)
    obtain ⟨e, e1, e2⟩ := mem_positions.1 hx
    obtain ⟨e', e1', e2'⟩ := mem_positions.1 hy
    have q := back_at h ho e1
    rw [hxy, back_at h ho e1'] at q
    have := h3 e (List.mem_of_getElem? e1) e' (List.mem_of_getElem? e1') e2 e2' (Option.some.inj q).symm
    subst this
    exact (List.getElem?_inj (List.getElem?_eq_some_iff.1 e1).1 hv'.edges).1 (e1.trans e1'.symm)
  rw [List.perm_ext_iff_of_nodup hnd (positions_nodup b p)]
  intro k
  rw [mem_positions, List.mem_map]
  constructor
  · rintro ⟨i, hi, rfl⟩
    obtain ⟨e, e1, e2⟩ := mem_positions.1 hi
    exact ⟨_, back_at h ho e1, h1 e (List.mem_of_getElem? e1) e2⟩
  · rintro ⟨e, e1, e2⟩
    obtain ⟨e', he', q1, q2⟩ := h2 e (List.mem_of_getElem? e1) e2
    obtain ⟨i, hi⟩ := List.mem_iff_getElem?.1 he'
    refine ⟨i, mem_positions.2 ⟨e', hi, q1⟩, ?_⟩
    have q := back_at h ho hi
    rw [q2] at q
    exact (List.getElem?_inj (List.getElem?_eq_some_iff.1 q).1 hv.edges).1 (q.trans e1.symm)

theorem not_other (h : Inserted b b' u v g es) (hv : Valid b) : (⟨u, v⟩ : EdgeDecl) ∉ es :=
  (List.nodup_cons.1 (h.edges.nodup_iff.1 hv.edges)).1

theorem into_back (h : Inserted b b' u v g es) (hv : Valid b) (hv' : Valid b') (ho : Off u v g es) {x : Name} (hx : x ≠ g) :
    ((edgesInto b' x).map (back b b' u v g)).Perm (edgesInto b x) := by
  have hno := not_other h hv
  refine positions_back h hv hv' ho (fun e => e.dst = x) ?_ ?_ ?_
  · intro e he hp
    rcases before_in h ho he with ⟨rfl, e1⟩ | ⟨rfl, e1⟩ | ⟨-, e1⟩ <;> rw [e1]
    · exact absurd (by simpa using hp) hx.symm
    · exact hp
    · exact hp
  · intro e he hp
    rcases List.mem_cons.1 (h.edges.mem_iff.1 he) with rfl | he
    · exact ⟨⟨g, v⟩, h.edges'.mem_iff.2 (by simp), hp, by simp [before]⟩
    · exact ⟨e, h.edges'.mem_iff.2 (by simp [he]), hp, by simp [before, ho.src e he, ho.dst e he]⟩
  · intro e he e' he' hp hp' heq
    rcases before_in h ho he with ⟨rfl, e1⟩ | ⟨rfl, e1⟩ | ⟨m, e1⟩
    · exact absurd (by simpa using hp) hx.symm
    · rcases before_in h ho he' with ⟨rfl, e1'⟩ | ⟨rfl, e1'⟩ | ⟨m', e1'⟩
      · exact absurd (by simpa using hp') hx.symm
      · rfl
      · rw [e1, e1'] at heq
        exact absurd (heq ▸ m') hno
    · rcases before_in h ho he' with ⟨rfl, e1'⟩ | ⟨rfl, e1'⟩ | ⟨m', e1'⟩
      · exact absurd (by simpa using hp') hx.symm
      · rw [e1, e1'] at heq
        exact absurd (heq ▸ m) hno
      · rw [e1, e1'] at heq
        exact heq

theorem from_back (h : Inserted b b' u v g es) (hv : Valid b) (hv' : Valid b') (ho : Off u v g es) {x : Name} (hx : x ≠ g) :
    ((edgesFrom b' x).map (back b b' u v g)).Perm (edgesFrom b x) := by
  have hno := not_other h hv
  refine positions_back h hv hv' ho (fun e => e.src = x) ?_ ?_ ?_
  · intro e he hp
    rcases before_in h ho he with ⟨rfl, e1⟩ | ⟨rfl, e1⟩ | ⟨-, e1⟩ <;> rw [e1]
    · exact hp
    · exact absurd (by simpa using hp) hx.symm
    · exact hp
  · intro e he hp
    rcases List.mem_cons.1 (h.edges.mem_iff.1 he) with rfl | he
    · exact ⟨⟨u, g⟩, h.edges'.mem_iff.2 (by simp), hp, by simp [before]⟩
    · exact ⟨e, h.edges'.mem_iff.2 (by simp [he]), hp, by simp [before, ho.src e he, ho.dst e he]⟩
  · intro e he e' he' hp hp' heq
    rcases before_in h ho he with ⟨rfl, e1⟩ | ⟨rfl, e1⟩ | ⟨m, e1⟩
    · rcases before_in h ho he' with ⟨rfl, e1'⟩ | ⟨rfl, e1'⟩ | ⟨m', e1'⟩
      · rfl
      · exact absurd (by simpa using hp') hx.symm
      · rw [e1, e1'] at heq
        exact absurd (heq ▸ m') hno
    · exact absurd (by simpa using hp) hx.symm
    · rcases before_in h ho he' with ⟨rfl, e1'⟩ | ⟨rfl, e1'⟩ | ⟨m', e1'⟩
      · rw [e1, e1'] at heq
        exact absurd (heq ▸ m) hno
      · exact absurd (by simpa using hp') hx.symm
      · rw [e1, e1'] at heq
        exact heq

theorem chain_back (h : Inserted b b' u v g es) (hb : b.build = .ok M.net) (hb' : b'.build = .ok M'.net) {e e' : Nat}
    (hp : SameChain M'.net e e') : SameChain M.net (back b b' u v g e) (back b b' u v g e') := by
  have hv := (C49_build_iff b).1 ⟨_, hb⟩
  have hv' := (C49_build_iff b').1 ⟨_, hb'⟩
  have hf := fresh h hv'
  have ho := off h hv hf
  induction hp with
  | rel x y hxy =>
    obtain ⟨n, hn, hk, hi, hout⟩ := hxy
    obtain ⟨i, d, hd, rfl⟩ := (mem_nodes hb' n).1 hn
    rw [h.nodes] at hd
    have hi : edgesInto b' d.name = [x] := hi
    have hout : edgesFrom b' d.name = [y] := hout
    by_cases hg : d.name = g
    · have hx : x ∈ positions b' fun e => e.dst = d.name := by
        have : x ∈ edgesInto b' d.name := by rw [hi]; simp
        exact this
      have hy : y ∈ positions b' fun e => e.src = d.name := by
        have : y ∈ edgesFrom b' d.name := by rw [hout]; simp
        exact this
      obtain ⟨e1, h1, h2⟩ := mem_positions.1 hx
      obtain ⟨e2, h3, h4⟩ := mem_positions.1 hy
      have q1 : before u v g e1 = ⟨u, v⟩ := by simp only [decide_eq_true_eq] at h2; simp [before, h2, hg]
      have q2 : before u v g e2 = ⟨u, v⟩ := by simp only [decide_eq_true_eq] at h4; simp [before, h4, hg]
      have : back b b' u v g x = back b b' u v g y := by simp [back, h1, h3, q1, q2]
      rw [this]
      exact Relation.EqvGen.refl _
    · have hd' : d ∈ b.nodes := by
        rcases List.mem_append.1 (List.mem_of_getElem? hd) with hd | hd
        · exact hd
        · rw [List.mem_singleton] at hd
          exact absurd (hd ▸ rfl) hg
      obtain ⟨j, hj⟩ := List.mem_iff_getElem?.1 hd'
      refine .rel _ _ ⟨_, (mem_nodes hb _).2 ⟨j, d, hj, rfl⟩, hk, ?_, ?_⟩
      · have := into_back h hv hv' ho hg
        rw [hi] at this
        exact List.perm_singleton.1 this.symm
      · have := from_back h hv hv' ho hg
        rw [hout] at this
        exact List.perm_singleton.1 this.symm
  | refl => exact Relation.EqvGen.refl _
  | symm _ _ _ ih => exact ih.symm
  | trans _ _ _ _ _ ih1 ih2 => exact ih1.trans ih2

theorem edges_back (h : Inserted b b' u v g es) (hb : b.build = .ok M.net) (hb' : b'.build = .ok M'.net) {is : List Nat}
    (hl : ∀ i ∈ is, i < M.net.nodes.length) : ((edgesOfSet M'.net is).map (back b b' u v g)).Perm (edgesOfSet M.net is) := by
  have hv := (C49_build_iff b).1 ⟨_, hb⟩
  have hv' := (C49_build_iff b').1 ⟨_, hb'⟩
  have hf := fresh h hv'
  have ho := off h hv hf
  unfold edgesOfSet
  induction is with
  | nil => exact .nil
  | cons i is ih =>
    simp only [List.flatMap_cons, List.map_append]
    refine List.Perm.append ?_ (ih fun j hj => hl j (List.mem_cons_of_mem _ hj))
    have hi := hl i List.mem_cons_self
    rw [nodes_length hb] at hi
    rw [nodes_at hb, nodes_at hb', at_ins h hi]
    have hd := List.getElem?_eq_getElem hi
    generalize b.nodes[i] = d at hd
    have hne := name_ne hf hd
    rw [hd]
    simp only [Option.map_some, Option.getD_some, edgesOf, nodeOf]
    cases d.kind
    · exact from_back h hv hv' ho hne
    · exact into_back h hv hv' ho hne
    · exact from_back h hv hv' ho hne
    · simp only [List.map_append]
      exact (into_back h hv hv' ho hne).append (from_back h hv hv' ho hne)

theorem setup_nodes {a : AggNode} {p : CPair} (hp : p ∈ a.setupPairs) : p.nodes0 ∈ a.nodes ∧ p.nodes1 ∈ a.nodes := by
  unfold AggNode.setupPairs at hp
  cases hF : a.factors with
  | none => rw [hF] at hp; cases hp
  | some F =>
    rw [hF] at hp
    simp only at hp
    cases hc : F.constPairs a.nodes with
    | error e => rw [hc] at hp; cases hp
    | ok cps =>
      rw [hc] at hp
      exact constPairs_nodes F a.nodes cps hc p hp

theorem cpair_back (h : Inserted b b' u v g es) (hb : b.build = .ok M.net) (hb' : b'.build = .ok M'.net) (hM : M.Valid) {a : AggNode}
    (ha : a ∈ M.aggs) {p : CPair} (hp : p ∈ a.setupPairs) : ((p.edges M'.net).map (back b b' u v g)).Perm (p.edges M.net) := by
  obtain ⟨h0, h1⟩ := setup_nodes hp
  unfold CPair.edges
  rw [List.map_append]
  exact (edges_back h hb hb' (hM.aggs a ha _ h0)).append (edges_back h hb hb' (hM.aggs a ha _ h1))

/-- With the link, too, C56 and C86 describe the programs. -/
theorem treated_ins (h : Inserted b b' u v g es) (hm : SameElse b M M') (hb : b.build = .ok M.net) (hb' : b'.build = .ok M'.net)
    (hM : Treated M) : Treated M' := by
  have hv := (C49_build_iff b).1 ⟨_, hb⟩
  have hv' := (C49_build_iff b').1 ⟨_, hb'⟩
  have hf := fresh h hv'
  have hle : M.net.nodes.length ≤ M'.net.nodes.length := by
    rw [nodes_length hb, nodes_length hb', h.nodes, List.length_append]
    exact Nat.le_add_right _ _
  refine ⟨⟨⟨b', hb'⟩, ?_, ?_⟩, ?_, ⟨?_, ?_, ?_, ?_, ?_⟩⟩
  · rw [hm.aggs]
    exact fun a ha s hs i hi => lt_of_lt_of_le (hM.valid.aggs a ha s hs i hi) hle
  · rw [hm.vs]
    exact fun w hw p hp => lt_of_lt_of_le (hM.valid.vs w hw p hp) hle
  · intro a ha mn mx he s hs i hi
    rw [hm.aggs] at ha
    obtain ⟨lo, hi', hc⟩ := hM.members a ha mn mx he s hs i hi
    exact ⟨lo, hi', (bounds_ins h hm hb hb' (hM.valid.aggs a ha s hs i hi) lo hi').2 hc⟩
  · rw [hm.aggs]; exact hM.factors.setup
  · rw [hm.aggs]; exact hM.factors.rhs
  · intro a ha p hp hvar
    rw [hm.aggs] at ha
    have h1 := hM.factors.apart a ha p hp hvar
    rw [← (cpair_back h hb hb' hM.valid ha hp).pairwise_iff fun hxy hyx => hxy hyx.symm, List.pairwise_map] at h1
    exact h1.imp fun hn hc => hn (chain_back h hb hb' hc)
  · intro a ha p hp hvar i hi n hn hk
    rw [hm.aggs] at ha
    have hi' : i < M.net.nodes.length := by
      obtain ⟨h0, h1⟩ := setup_nodes hp
      exact (List.mem_append.1 hi).elim (hM.valid.aggs a ha _ h0 i) (hM.valid.aggs a ha _ h1 i)
    rw [nodes_length hb] at hi'
    rw [nodes_at hb', at_ins h hi'] at hn
    obtain ⟨d, hd, rfl⟩ := Option.map_eq_some_iff.1 hn
    have hfn := (from_nil b d.name).1 (hM.factors.storage a ha p hp hvar i hi (nodeOf b i d) (by rw [nodes_at hb, hd]; rfl) hk)
    refine (from_nil b' d.name).2 fun e he => ?_
    rcases List.mem_cons.1 (h.edges'.mem_iff.1 he) with rfl | he
    · exact hfn ⟨u, v⟩ (h.edges.mem_iff.2 List.mem_cons_self)
    rcases List.mem_cons.1 he with rfl | he
    · exact (name_ne hf hd).symm
    · exact hfn e (h.edges.mem_iff.2 (List.mem_cons_of_mem _ he))
  · rw [hm.aggs]
    have half : ∀ p ∈ M.aggs.flatMap AggNode.setupPairs, ∀ q ∈ M.aggs.flatMap AggNode.setupPairs,
        (∀ e ∈ p.edges M'.net, ∃ e' ∈ q.edges M'.net, SameChain M'.net e e') →
        ∀ e ∈ p.edges M.net, ∃ e' ∈ q.edges M.net, SameChain M.net e e' := by
      intro p hp q hq hpq e he
      obtain ⟨a, ha, hp⟩ := List.mem_flatMap.1 hp
      obtain ⟨a', ha', hq⟩ := List.mem_flatMap.1 hq
      obtain ⟨e₀, h0, rfl⟩ := List.mem_map.1 ((cpair_back h hb hb' hM.valid ha hp).mem_iff.2 he)
      obtain ⟨e', he', hc⟩ := hpq e₀ h0
      exact ⟨_, (cpair_back h hb hb' hM.valid ha' hq).mem_iff.1 (List.mem_map_of_mem he'), chain_back h hb hb' hc⟩
    exact hM.factors.distinct.imp_of_mem fun hp hq hpq hvp hvq hs => hpq hvp hvq ⟨half _ hp _ hq hs.1, half _ hq _ hp hs.2⟩

end Verif.Insert
