import Verif.Spec.Statics
import Verif.Props.Choice
import Mathlib.Algebra.Order.BigOperators.Group.List

/-! # C109: what a change of limits or costs does -/

namespace Verif.Statics

open Verif.Solver
open Verif.Topology (TNode)

variable {M M' : Model} {st st' : StepState} {big negBig : ℚ} {p p' : Built}

theorem right_mem {α β : Type} {R : α → β → Prop} {l : List α} {l' : List β} (h : List.Forall₂ R l l') : ∀ y ∈ l', ∃ x ∈ l, R x y := by
  induction h with
  | nil => intro y hy; cases hy
  | cons h1 _ ih =>
    intro y hy
    rcases List.mem_cons.1 hy with rfl | hy
    · exact ⟨_, List.mem_cons_self, h1⟩
    · obtain ⟨x, hx, hr⟩ := ih y hy
      exact ⟨x, List.mem_cons_of_mem _ hx, hr⟩

theorem left_mem {α β : Type} {R : α → β → Prop} {l : List α} {l' : List β} (h : List.Forall₂ R l l') : ∀ x ∈ l, ∃ y ∈ l', R x y := by
  induction h with
  | nil => intro y hy; cases hy
  | cons h1 _ ih =>
    intro y hy
    rcases List.mem_cons.1 hy with rfl | hy
    · exact ⟨_, List.mem_cons_self, h1⟩
    · obtain ⟨x, hx, hr⟩ := ih y hy
      exact ⟨x, List.mem_cons_of_mem _ hx, hr⟩

theorem right_get {α β : Type} {R : α → β → Prop} {l : List α} {l' : List β} (h : List.Forall₂ R l l') :
    ∀ (k : Nat) y, l'[k]? = some y → ∃ x, l[k]? = some x ∧ R x y := by
  induction h with
  | nil => intro k y hy; simp at hy
  | cons h1 _ ih =>
    intro k y hy
    cases k with
    | zero => simp only [List.getElem?_cons_zero, Option.some.injEq] at hy; subst hy; exact ⟨_, rfl, h1⟩
    | succ k => exact ih k y (by simpa using hy)

theorem atLeast_iff {σ : Nat → Option ℚ} {m : Option Metric} {d v : ℚ} : AtLeast σ m d v ↔ ∃ l, ValueIs σ m d l ∧ l ≤ v := by
  cases m with
  | none => simp [AtLeast, ValueIs]
  | some m => rfl

theorem atMost_iff {σ : Nat → Option ℚ} {m : Option Metric} {d v : ℚ} : AtMost σ m d v ↔ ∃ u, ValueIs σ m d u ∧ v ≤ u := by
  cases m with
  | none => simp [AtMost, ValueIs]
  | some m => rfl

theorem atLeast_looser {σ σ' : Nat → Option ℚ} {m m' : Option Metric} {d v : ℚ} (h : NoHigher σ σ' m m' d) (hd : ∃ v, ValueIs σ' m' d v)
    (ha : AtLeast σ m d v) : AtLeast σ' m' d v := by
  obtain ⟨l, h1, h2⟩ := atLeast_iff.1 ha
  obtain ⟨l', h3⟩ := hd
  exact atLeast_iff.2 ⟨l', h3, le_trans (h _ _ h1 h3) h2⟩

theorem atMost_looser {σ σ' : Nat → Option ℚ} {m m' : Option Metric} {d v : ℚ} (h : NoLower σ σ' m m' d) (hd : ∃ v, ValueIs σ' m' d v)
    (ha : AtMost σ m d v) : AtMost σ' m' d v := by
  obtain ⟨l, h1, h2⟩ := atMost_iff.1 ha
  obtain ⟨l', h3⟩ := hd
  exact atMost_iff.2 ⟨l', h3, le_trans h2 (h _ _ h1 h3)⟩

theorem constOr_some {d : ℚ} {m : Option Metric} : (∃ c, constOr d m = some c) ↔ Fixed m := by
  unfold Fixed
  rcases m with _ | (_ | _) <;> simp [constOr, Metric.const?]

theorem constBounds_none (h : Looser M M' st st') {n : TNode} (hn : n ∈ M.net.nodes) (hc : constBounds n (M'.data n.index) = none) :
    constBounds n (M.data n.index) = none := by
  by_contra hne
  obtain ⟨q, hq⟩ := Option.ne_none_iff_exists'.1 hne
  have hk : n.kind ≠ .storage := by
    intro hk; unfold constBounds at hq; rw [hk] at hq; cases hq
  have key : ∀ D : NodeData, (∃ q, constBounds n D = some q) ↔ Fixed D.minFlow ∧ Fixed D.maxFlow := by
    intro D
    rw [← constOr_some (d := 0), ← constOr_some (d := f64MAX) (m := D.maxFlow)]
    unfold constBounds
    cases hn : n.kind <;> first | exact absurd hn hk | skip
    all_goals cases constOr 0 D.minFlow <;> cases constOr f64MAX D.maxFlow <;> simp
  obtain ⟨f1, f2⟩ := (key _).1 ⟨q, hq⟩
  obtain ⟨q', hq'⟩ := (key _).2 (h.fixed n hn hk f1 f2)
  rw [hc] at hq'
  cases hq'

theorem isGroup_same (h : Looser M M' st st') (g : List Nat) : IsGroup M' g ↔ IsGroup M g := by
  constructor
  · rintro ⟨a', ha', mn, mx, he, hg⟩
    obtain ⟨a, ha, h1, h2, _⟩ := right_mem h.groups a' ha'
    refine ⟨a, ha, mn, mx, ?_, h1 ▸ hg⟩
    unfold AggNode.exclusivity at he ⊢
    rw [← h2]; exact he
  · rintro ⟨a, ha, mn, mx, he, hg⟩
    obtain ⟨a', ha', h1, h2, _⟩ := left_mem h.groups a ha
    refine ⟨a', ha', mn, mx, ?_, h1 ▸ hg⟩
    unfold AggNode.exclusivity at he ⊢
    rw [h2]; exact he

theorem choice_looser (h : Looser M M' st st') {f : Nat → ℚ} {on : List Nat → Bool} (hc : Choice M f on) : Choice M' f on where
  count := by
    intro a' ha' mn mx he
    obtain ⟨a, ha, h1, h2, _⟩ := right_mem h.groups a' ha'
    rw [h1]
    refine hc.count a ha mn mx ?_
    unfold AggNode.exclusivity at he ⊢
    rw [← h2]; exact he
  idle := by
    intro g hg ho i hi
    rw [h.net]
    exact hc.idle g ((isGroup_same h g).1 hg) ho i hi
  busy := by
    intro g hg ho i hi lo hi' hb
    have hg' := (isGroup_same h g).1 hg
    rw [h.net]
    refine hc.busy g hg' ho i hi lo hi' ?_
    obtain ⟨n, h1, h2, h3, h4⟩ := hb
    obtain ⟨e1, e2⟩ := h.members i ⟨g, hg', hi⟩
    rw [h.net] at h1
    rw [e1] at h3
    rw [e2] at h4
    exact ⟨n, h1, h2, h3, h4⟩

theorem allowed_looser (h : Looser M M' st st') (hdef : Defined M' st') {f : Nat → ℚ} (ha : AllowedChoice M st f) : AllowedChoice M' st' f where
  nonneg := by rw [h.net]; exact ha.nonneg
  balanced := by rw [h.net]; exact ha.balanced
  nodes := by
    intro n hn hg
    have hn' := hn
    rw [h.net] at hn
    have := ha.nodes n hn (fun ⟨g, h1, h2⟩ => hg ⟨g, (isGroup_same h g).2 h1, h2⟩)
    unfold NodeOk at this ⊢
    split_ifs at this ⊢ with hk
    · obtain ⟨v, h1, h2, h3⟩ := this
      obtain ⟨e1, e2, e3⟩ := h.volumes n hn hk
      obtain ⟨_, d1, d2⟩ := hdef.volumes n hn' hk
      rw [h.days]
      exact ⟨v, e1.trans h1, atLeast_looser e2 d1 h2, atMost_looser e3 d2 h3⟩
    · obtain ⟨e1, e2⟩ := h.flows n hn hk
      obtain ⟨d1, d2⟩ := hdef.flows n hn' hk
      exact ⟨atLeast_looser e1 d1 this.1, atMost_looser e2 d2 this.2⟩
  aggs := by
    intro a' ha'
    obtain ⟨a, hm, h1, _, h3, h4⟩ := right_mem h.groups a' ha'
    obtain ⟨d1, d2⟩ := hdef.aggs a' ha'
    have e : aggFlow M'.net f a' = aggFlow M.net f a := by unfold aggFlow; rw [h1, h.net]
    rw [e]
    exact ⟨atLeast_looser h3 d1 (ha.aggs a hm).1, atMost_looser h4 d2 (ha.aggs a hm).2⟩
  factors := by
    intro a' ha' F hF
    obtain ⟨a, hm, h1, h2, _⟩ := right_mem h.groups a' ha'
    have hF' : a.factors = some F := by unfold AggNode.factors at hF ⊢; rw [← h2]; exact hF
    rw [h1, h.relations a hm F hF', h.net]
    exact ha.factors a hm F hF'
  vs := by
    intro k v' hv' hact
    obtain ⟨v, hv, hm⟩ := right_get h.licences k v' hv'
    obtain ⟨b1, b2, h1, h2, h3⟩ := ha.vs k v hv (h.active k hact)
    obtain ⟨b', hb'⟩ := hdef.vs k (List.getElem?_eq_some_iff.1 hv').1 hact
    obtain ⟨l1, l2⟩ := h.left k _ _ h1 hb'
    have e : vsUse M'.net f v' = vsUse M.net f v := by unfold vsUse; rw [hm, h.net]
    rw [e, h.days]
    exact ⟨b'.1, b'.2, hb', le_trans h2 l1, le_trans h3 l2⟩
  choice := by
    obtain ⟨on, hon⟩ := ha.choice
    exact ⟨on, choice_looser h hon⟩

theorem within_looser (h : Looser M M' st st') {f : Nat → ℚ} (hw : WithinLimits M big negBig st f) : WithinLimits M' big negBig st' f where
  edges := by rw [h.net]; exact hw.edges
  nodes := by
    intro n hn hc
    rw [h.net] at hn
    exact hw.nodes n hn (constBounds_none h hn hc)
  aggs := by
    intro a' ha'
    obtain ⟨a, hm, h1, _⟩ := right_mem h.groups a' ha'
    have e : aggFlow M'.net f a' = aggFlow M.net f a := by unfold aggFlow; rw [h1, h.net]
    rw [e]
    exact hw.aggs a hm
  vs := by
    intro v' hv'
    obtain ⟨v, hv, hm⟩ := right_mem h.licences v' hv'
    have e : vsUse M'.net f v' = vsUse M.net f v := by unfold vsUse; rw [hm, h.net]
    rw [e]
    exact hw.vs v hv
  factors := by
    intro a' ha' F cps ps hF hc hp
    obtain ⟨a, hm, h1, h2, _⟩ := right_mem h.groups a' ha'
    have hF' : a.factors = some F := by unfold AggNode.factors at hF ⊢; rw [← h2]; exact hF
    rw [h1] at hc hp
    rw [h.relations a hm F hF'] at hp
    exact hw.factors a hm F cps ps hF' hc hp

theorem Prepared.defined (hp : Prepared M big negBig st p) : Defined M st := by
  obtain ⟨sets, s, hg, hr, hs⟩ := hp.program
  exact (C86_defined M hp.valid hp.members hp.factors sets hg big negBig s hr st).1 ⟨_, hs⟩

theorem Prepared.sound (hp : Prepared M big negBig st p) {x : Nat → ℚ} (hx : p.lp.Feasible x) :
    AllowedChoice M st (p.flow x) ∧ WithinLimits M big negBig st (p.flow x) := by
  obtain ⟨sets, s, hg, hr, hs⟩ := hp.program
  exact C86_sound M hp.valid hp.members hp.factors sets hg big negBig s p hr st hp.days hs x hx

theorem Prepared.objective (hp : Prepared M big negBig st p) {x : Nat → ℚ} (hx : p.lp.Feasible x) {cost : TNode → ℚ}
    (hc : ∀ n ∈ M.net.nodes, Used n → CostIs M st.metric n (cost n)) : p.lp.objective x = totalCost M cost (p.flow x) := by
  obtain ⟨sets, s, hg, hr, hs⟩ := hp.program
  exact C20_objective M hp.valid big negBig sets s p hr st hs cost hc x (hp.sound hx).1.balanced

theorem Prepared.costs (hp : Prepared M big negBig st p) : ∃ cost : TNode → ℚ, ∀ n ∈ M.net.nodes, Used n → CostIs M st.metric n (cost n) := by
  classical
  have hdef := hp.defined.costs
  refine ⟨fun n => if hn : n ∈ M.net.nodes ∧ Used n then (hdef n hn.1 hn.2).choose else 0, ?_⟩
  intro n hn hu
  simp only [dif_pos (show n ∈ M.net.nodes ∧ Used n from ⟨hn, hu⟩)]
  exact (hdef n hn hu).choose_spec

/-- **C109 (more is possible).** What is possible remains so when limits are loosened. -/
theorem C109_possible (h : Looser M M' st st') (hbig : 1000000 ≤ big) (hp : Prepared M big negBig st p) (hp' : Prepared M' big negBig st' p')
    (x : Nat → ℚ) (hx : p.lp.Feasible x) : ∃ y, p'.lp.Feasible y ∧ SameFlows M p p' x y := by
  obtain ⟨a1, a2⟩ := hp.sound hx
  obtain ⟨sets, s, hg, hr, hs⟩ := hp'.program
  obtain ⟨y, y1, y2⟩ := C86_represented M' hp'.valid hp'.members hp'.factors sets hg big negBig hbig s p' hr st' hp'.days hs _
    (allowed_looser h hp'.defined a1) (within_looser h a2)
  refine ⟨y, y1, ?_⟩
  rw [h.net] at y2
  exact y2

theorem nodeFlow_unused {n : TNode} (hu : ¬ Used n) (f : Nat → ℚ) : nodeFlow f n = 0 := by
  have hu := not_or.1 hu
  rw [not_not, not_not] at hu
  unfold nodeFlow
  cases n.kind <;> simp [hu.1, hu.2]

theorem flow_nonneg (hp : Prepared M big negBig st p) {x : Nat → ℚ} (hx : p.lp.Feasible x) {n : TNode} (hn : n ∈ M.net.nodes)
    (hk : n.kind ≠ .storage) : 0 ≤ nodeFlow (p.flow x) n := by
  have h0 : ∀ e, e ∈ n.incoming ∨ e ∈ n.outgoing → 0 ≤ p.flow x e :=
    fun e he => (hp.sound hx).1.nonneg e (edges_in_range (Created.wf hp.valid) n hn e he)
  unfold nodeFlow
  cases hn : n.kind
  · exact List.sum_nonneg (List.forall_mem_map.2 fun e he => h0 e (Or.inr he))
  · exact List.sum_nonneg (List.forall_mem_map.2 fun e he => h0 e (Or.inl he))
  · exact List.sum_nonneg (List.forall_mem_map.2 fun e he => h0 e (Or.inr he))
  · exact absurd hn hk

/-- Costs of the same flows. -/
theorem cost_moved (h : M'.net = M.net) (hp : Prepared M big negBig st p) {f g : Nat → ℚ} (hs : ∀ e < M.net.edges.length, g e = f e)
    (cost : TNode → ℚ) : totalCost M' cost g = totalCost M cost f := by
  rw [← totalCost_agree hp.valid (fun e he => hs e he) cost]
  unfold totalCost
  rw [h]

/-- **C109 (cheaper).** With looser limits and costs that are not higher, and the same for storages, the cheapest allocation does not
cost more than any allocation before. -/
theorem C109_cheaper (h : Looser M M' st st') (hbig : 1000000 ≤ big) (hp : Prepared M big negBig st p) (hp' : Prepared M' big negBig st' p')
    (hc : ∀ n ∈ M.net.nodes, Used n → ∀ c c', CostIs M st.metric n c → CostIs M' st'.metric n c' → c' ≤ c ∧ (n.kind = .storage → c' = c))
    (x y : Nat → ℚ) (hx : p.lp.Feasible x) (hy : Cheapest p' y) : p'.lp.objective y ≤ p.lp.objective x := by
  obtain ⟨z, hz, hs⟩ := C109_possible h hbig hp hp' x hx
  refine le_trans (hy.2 z hz) ?_
  obtain ⟨cost, hcost⟩ := hp.costs
  obtain ⟨cost', hcost'⟩ := hp'.costs
  rw [hp.objective hx hcost, hp'.objective hz hcost', cost_moved h.net hp hs]
  unfold totalCost
  refine List.sum_le_sum fun n hn => ?_
  by_cases hu : Used n
  · obtain ⟨h1, h2⟩ := hc n hn hu _ _ (hcost n hn hu) (hcost' n (by rw [h.net]; exact hn) hu)
    by_cases hk : n.kind = .storage
    · rw [h2 hk]
    · exact mul_le_mul_of_nonneg_right h1 (flow_nonneg hp hx hn hk)
  · rw [nodeFlow_unused hu, mul_zero, mul_zero]

/-- **C109 (scale).** If all costs are multiplied by a positive number and no limit changes, the cheapest flows remain the cheapest,
and their cost is multiplied. -/
theorem C109_scale (h : Looser M M' st st') (h' : Looser M' M st' st) (hbig : 1000000 ≤ big) (hp : Prepared M big negBig st p)
    (hp' : Prepared M' big negBig st' p') (k : ℚ) (hk : 0 < k)
    (hc : ∀ n ∈ M.net.nodes, Used n → ∀ c c', CostIs M st.metric n c → CostIs M' st'.metric n c' → c' = k * c)
    (x : Nat → ℚ) (hx : Cheapest p x) : ∃ y, Cheapest p' y ∧ SameFlows M p p' x y ∧ p'.lp.objective y = k * p.lp.objective x := by
  obtain ⟨cost, hcost⟩ := hp.costs
  obtain ⟨cost', hcost'⟩ := hp'.costs
  have hk' : ∀ f, totalCost M cost' f = k * totalCost M cost f := by
    intro f
    unfold totalCost
    have hc' : ∀ n ∈ M.net.nodes, cost' n * nodeFlow f n = k * (cost n * nodeFlow f n) := by
      intro n hn
      by_cases hu : Used n
      · rw [hc n hn hu _ _ (hcost n hn hu) (hcost' n (by rw [h.net]; exact hn) hu), mul_assoc]
      · rw [nodeFlow_unused hu, mul_zero, mul_zero, mul_zero]
    generalize M.net.nodes = l at hc'
    induction l with
    | nil => simp
    | cons n l ih =>
      rw [List.map_cons, List.sum_cons, ih fun m hm => hc' m (List.mem_cons_of_mem _ hm), hc' n List.mem_cons_self, List.map_cons,
        List.sum_cons, mul_add]
  have hobj : ∀ w z, p.lp.Feasible w → p'.lp.Feasible z → SameFlows M p p' w z → p'.lp.objective z = k * p.lp.objective w := by
    intro w z hw hz hs
    rw [hp.objective hw hcost, hp'.objective hz hcost', cost_moved h.net hp hs, hk']
  obtain ⟨y, hy, hs⟩ := C109_possible h hbig hp hp' x hx.1
  refine ⟨y, ⟨hy, fun z hz => ?_⟩, hs, hobj x y hx.1 hy hs⟩
  obtain ⟨w, hw, hs'⟩ := C109_possible h' hbig hp' hp z hz
  rw [hobj x y hx.1 hy hs, hobj w z hw hz fun e he => (hs' e (by rw [h.net]; exact he)).symm]
  exact mul_le_mul_of_nonneg_left (hx.2 w hw) hk.le

/-- **C109 (demand).** If the costs of some nodes rise by the same amount, with all other costs and all limits as before, cheapest
allocations send no more through those nodes together than before. -/
theorem C109_demand (h : Looser M M' st st') (h' : Looser M' M st' st) (hbig : 1000000 ≤ big) (hp : Prepared M big negBig st p)
    (hp' : Prepared M' big negBig st' p') (dear : TNode → Bool) (d : ℚ) (hd : 0 < d)
    (hc : ∀ n ∈ M.net.nodes, Used n → ∀ c c', CostIs M st.metric n c → CostIs M' st'.metric n c' → c' = if dear n then c + d else c)
    (x y : Nat → ℚ) (hx : Cheapest p x) (hy : Cheapest p' y) :
    ((M.net.nodes.filter dear).map (nodeFlow (p'.flow y))).sum ≤ ((M.net.nodes.filter dear).map (nodeFlow (p.flow x))).sum := by
  obtain ⟨cost, hcost⟩ := hp.costs
  obtain ⟨cost', hcost'⟩ := hp'.costs
  have hsum : ∀ f, totalCost M cost' f = totalCost M cost f + d * ((M.net.nodes.filter dear).map (nodeFlow f)).sum := by
    intro f
    unfold totalCost
    have hc' : ∀ n ∈ M.net.nodes, cost' n * nodeFlow f n = cost n * nodeFlow f n + if dear n then d * nodeFlow f n else 0 := by
      intro n hn
      by_cases hu : Used n
      · rw [hc n hn hu _ _ (hcost n hn hu) (hcost' n (by rw [h.net]; exact hn) hu)]
        split_ifs <;> ring
      · rw [nodeFlow_unused hu]; simp
    generalize M.net.nodes = l at hc'
    induction l with
    | nil => simp
    | cons n l ih =>
      rw [List.map_cons, List.sum_cons, ih fun m hm => hc' m (List.mem_cons_of_mem _ hm), hc' n List.mem_cons_self, List.map_cons,
        List.sum_cons, List.filter_cons]
      split_ifs
      · rw [List.map_cons, List.sum_cons]; ring
      · ring
  obtain ⟨y₁, hy₁, hs⟩ := C109_possible h hbig hp hp' x hx.1
  obtain ⟨x₁, hx₁, hs'⟩ := C109_possible h' hbig hp' hp y hy.1
  have e1 := hy.2 y₁ hy₁
  have e2 := hx.2 x₁ hx₁
  have hs'' : ∀ e < M.net.edges.length, p'.flow y e = p.flow x₁ e := fun e he => (hs' e (by rw [h.net]; exact he)).symm
  have e3 : totalCost M' cost' (p'.flow y) = totalCost M cost' (p'.flow y) := by unfold totalCost; rw [h.net]
  rw [hp'.objective hy₁ hcost', hp'.objective hy.1 hcost', cost_moved h.net hp hs, e3, hsum, hsum] at e1
  rw [hp.objective hx₁ hcost, hp.objective hx.1 hcost, ← totalCost_agree hp.valid hs''] at e2
  nlinarith

end Verif.Statics
