import Verif.Lemmas.SolverFlow

/-! # Lemmas linking rows of a step to the allocation problem -/

namespace Verif.Solver

open Verif.State (NodeKind Edge)
open Verif.Topology (Network TNode)

/-! ## Bounds -/

theorem valueOr_iff {σ : Nat → Option ℚ} {m : Option Metric} {d v : ℚ} : valueOr d σ m = some v ↔ ValueIs σ m d v := by
  cases m with
  | none => simp [valueOr, ValueIs, eq_comm]
  | some m => simp [valueOr, ValueIs]

theorem atLeast_iff {σ : Nat → Option ℚ} {m : Option Metric} {d v : ℚ} :
    AtLeast σ m d v ↔ ∃ l, valueOr d σ m = some l ∧ l ≤ v := by
  cases m with
  | none => simp [valueOr, AtLeast]
  | some m => simp [valueOr, AtLeast]

theorem atMost_iff {σ : Nat → Option ℚ} {m : Option Metric} {d v : ℚ} :
    AtMost σ m d v ↔ ∃ l, valueOr d σ m = some l ∧ v ≤ l := by
  cases m with
  | none => simp [valueOr, AtMost]
  | some m => simp [valueOr, AtMost]

theorem constOr_valueOr {σ : Nat → Option ℚ} {m : Option Metric} {d v : ℚ} (h : constOr d m = some v) : valueOr d σ m = some v := by
  cases m with
  | none => exact h
  | some m =>
    cases m with
    | const w => exact h
    | dyn k => cases h

theorem nodeOk_var (M : Model) (st : StepState) (hd : 0 < st.days) (f : Nat → ℚ) (n : TNode) :
    NodeOk M st f n ↔ ∃ q, nodeBounds n (M.data n.index) st = some q ∧ q.1 ≤ nodeFlow f n ∧ nodeFlow f n ≤ q.2 := by
  unfold NodeOk nodeBounds
  cases hk : n.kind with
  | input =>
    rw [if_neg (by simp), atLeast_iff, atMost_iff]
    simp only
    cases valueOr 0 st.metric (M.data n.index).minFlow <;> cases valueOr f64MAX st.metric (M.data n.index).maxFlow <;> simp
  | link =>
    rw [if_neg (by simp), atLeast_iff, atMost_iff]
    simp only
    cases valueOr 0 st.metric (M.data n.index).minFlow <;> cases valueOr f64MAX st.metric (M.data n.index).maxFlow <;> simp
  | output =>
    rw [if_neg (by simp), atLeast_iff, atMost_iff]
    simp only
    cases valueOr 0 st.metric (M.data n.index).minFlow <;> cases valueOr f64MAX st.metric (M.data n.index).maxFlow <;> simp
  | storage =>
    simp only [if_true, atLeast_iff, atMost_iff]
    cases st.volume n.index with
    | none => simp
    | some v =>
      cases valueOr 0 st.metric (M.data n.index).minVolume with
      | none => simp
      | some lo =>
        cases valueOr f64MAX st.metric (M.data n.index).maxVolume with
        | none => simp
        | some hi =>
          simp only [Option.some.injEq, exists_eq_left', ]
          rw [div_le_iff₀ hd, le_div_iff₀ hd]
          constructor
          · rintro ⟨h1, h2⟩; constructor <;> linarith
          · rintro ⟨h1, h2⟩; constructor <;> linarith

theorem nodeBounds_const {M : Model} {st : StepState} {n : TNode} {lo hi : ℚ} (h : constBounds n (M.data n.index) = some (lo, hi)) :
    nodeBounds n (M.data n.index) st = some (lo, hi) ∧ n.kind ≠ .storage := by
  unfold constBounds at h
  unfold nodeBounds
  have plain : ∀ d : NodeData, (match constOr 0 d.minFlow, constOr f64MAX d.maxFlow with
      | some lo, some hi => some (lo, hi)
      | _, _ => none) = some (lo, hi) → (match valueOr 0 st.metric d.minFlow, valueOr f64MAX st.metric d.maxFlow with
      | some lo, some hi => some (lo, hi)
      | _, _ => none) = some (lo, hi) := by
    intro d h
    cases h1 : constOr 0 d.minFlow with
    | none => simp [h1] at h
    | some a =>
      cases h2 : constOr f64MAX d.maxFlow with
      | none => simp [h1, h2] at h
      | some b => rw [h1, h2] at h; rw [constOr_valueOr h1, constOr_valueOr h2]; exact h
  cases hk : n.kind with
  | input => rw [hk] at h; exact ⟨plain _ h, by simp⟩
  | link => rw [hk] at h; exact ⟨plain _ h, by simp⟩
  | output => rw [hk] at h; exact ⟨plain _ h, by simp⟩
  | storage => rw [hk] at h; cases h

theorem aggOk (st : StepState) (a : AggNode) (v : ℚ) : (AtLeast st.metric a.minFlow 0 v ∧ AtMost st.metric a.maxFlow f64MAX v) ↔
    ∃ q, aggBounds st a = some q ∧ q.1 ≤ v ∧ v ≤ q.2 := by
  unfold aggBounds
  rw [atLeast_iff, atMost_iff]
  cases valueOr 0 st.metric a.minFlow <;> cases valueOr f64MAX st.metric a.maxFlow <;> simp

theorem vsOk (st : StepState) (hd : 0 < st.days) (negBig big : ℚ) (k : Nat) (u : ℚ) (hl : negBig ≤ -u) (hb : -u ≤ big) :
    (∃ q, vsRowBounds st negBig big k = some q ∧ q.1 ≤ -u ∧ -u ≤ q.2) ↔
    (st.vsActive k = true → ∃ available missing, st.vsBounds k = some (available, missing) ∧
      st.days * u ≤ available ∧ -(st.days * u) ≤ missing) := by
  unfold vsRowBounds
  by_cases ha : st.vsActive k = true
  · rw [if_pos ha]
    simp only [ha, true_implies]
    cases hv : st.vsBounds k with
    | none => simp
    | some b =>
      obtain ⟨av, mi⟩ := b
      simp only [Option.map_some, Option.some.injEq, exists_eq_left', Prod.mk.injEq]
      rw [div_le_iff₀ hd, le_div_iff₀ hd]
      constructor
      · rintro ⟨h1, h2⟩; exact ⟨av, mi, ⟨rfl, rfl⟩, by linarith, by linarith⟩
      · rintro ⟨_, _, ⟨rfl, rfl⟩, h1, h2⟩; constructor <;> linarith
  · rw [if_neg ha]
    simp [ha, hl, hb]

/-! ## Costs -/

theorem costLoop_iff (M : Model) (σ : Nat → Option ℚ) (f : ℚ → ℚ → ℚ) (is : List Nat) : ∀ c r,
    costLoop M.vs σ f is c = some r ↔ ∃ cs, VsCostsAre M σ is cs ∧ r = cs.foldl f c := by
  induction is with
  | nil =>
    intro c r
    simp only [costLoop, Option.some.injEq, VsCostsAre]
    constructor
    · rintro rfl; exact ⟨[], .nil, rfl⟩
    · rintro ⟨cs, h, rfl⟩; cases h; rfl
  | cons i is ih =>
    intro c r
    simp only [costLoop]
    cases hv : M.vs[i]? with
    | none =>
      simp only [reduceCtorEq, false_iff]
      rintro ⟨cs, h, _⟩
      cases h with
      | cons h _ => obtain ⟨v, h, _⟩ := h; rw [hv] at h; cases h
    | some v =>
      simp only
      cases hk : valueOr 0 σ v.cost with
      | none =>
        simp only [reduceCtorEq, false_iff]
        rintro ⟨cs, h, _⟩
        cases h with
        | cons h _ =>
          obtain ⟨v', h, h'⟩ := h
          rw [hv] at h; cases h
          rw [← valueOr_iff, hk] at h'; cases h'
      | some k =>
        simp only [ih]
        constructor
        · rintro ⟨cs, h, rfl⟩
          exact ⟨k :: cs, .cons ⟨v, hv, valueOr_iff.1 hk⟩ h, rfl⟩
        · rintro ⟨cs, h, rfl⟩
          cases h with
          | @cons _ c' _ cs' h h2 =>
            obtain ⟨v', h, h'⟩ := h
            rw [hv] at h; cases h
            rw [← valueOr_iff, hk] at h'; cases h'
            exact ⟨cs', h2, rfl⟩

theorem foldl_add_eq (cs : List ℚ) : ∀ c, cs.foldl (· + ·) c = c + cs.sum := by
  induction cs with
  | nil => intro c; simp
  | cons d cs ih => intro c; simp only [List.foldl_cons, ih, List.sum_cons]; ring

theorem foldl_max_spec (cs : List ℚ) : ∀ c r, r = cs.foldl max c ↔ r ∈ c :: cs ∧ ∀ d ∈ c :: cs, d ≤ r := by
  have key : ∀ (cs : List ℚ) (c : ℚ), cs.foldl max c ∈ c :: cs ∧ ∀ d ∈ c :: cs, d ≤ cs.foldl max c := by
    intro cs
    induction cs with
    | nil => intro c; simp
    | cons d cs ih =>
      intro c
      obtain ⟨h1, h2⟩ := ih (max c d)
      simp only [List.foldl_cons]
      refine ⟨?_, ?_⟩
      · rw [List.mem_cons] at h1
        rcases h1 with h1 | h1
        · rw [h1]
          rcases max_choice c d with h | h <;> rw [h] <;> simp
        · exact List.mem_cons_of_mem _ (List.mem_cons_of_mem _ h1)
      · intro e he
        have hm := h2 (max c d) (by simp)
        rw [List.mem_cons, List.mem_cons] at he
        rcases he with rfl | rfl | he
        · exact le_trans (le_max_left _ _) hm
        · exact le_trans (le_max_right _ _) hm
        · exact h2 e (List.mem_cons_of_mem _ he)
  intro c r
  obtain ⟨h1, h2⟩ := key cs c
  constructor
  · rintro rfl; exact ⟨h1, h2⟩
  · rintro ⟨h3, h4⟩; exact le_antisymm (h2 r h3) (h4 _ h1)

theorem foldl_min_spec (cs : List ℚ) : ∀ c r, r = cs.foldl min c ↔ r ∈ c :: cs ∧ ∀ d ∈ c :: cs, r ≤ d := by
  have key : ∀ (cs : List ℚ) (c : ℚ), cs.foldl min c ∈ c :: cs ∧ ∀ d ∈ c :: cs, cs.foldl min c ≤ d := by
    intro cs
    induction cs with
    | nil => intro c; simp
    | cons d cs ih =>
      intro c
      obtain ⟨h1, h2⟩ := ih (min c d)
      simp only [List.foldl_cons]
      refine ⟨?_, ?_⟩
      · rw [List.mem_cons] at h1
        rcases h1 with h1 | h1
        · rw [h1]
          rcases min_choice c d with h | h <;> rw [h] <;> simp
        · exact List.mem_cons_of_mem _ (List.mem_cons_of_mem _ h1)
      · intro e he
        have hm := h2 (min c d) (by simp)
        rw [List.mem_cons, List.mem_cons] at he
        rcases he with rfl | rfl | he
        · exact le_trans hm (min_le_left _ _)
        · exact le_trans hm (min_le_right _ _)
        · exact h2 e (List.mem_cons_of_mem _ he)
  intro c r
  obtain ⟨h1, h2⟩ := key cs c
  constructor
  · rintro rfl; exact ⟨h1, h2⟩
  · rintro ⟨h3, h4⟩; exact le_antisymm (h4 _ h1) (h2 r h3)

theorem nodeCost_iff (M : Model) (σ : Nat → Option ℚ) (n : TNode) (c : ℚ) : nodeCost M σ n = some c ↔ CostIs M σ n c := by
  unfold nodeCost CostIs
  cases hv : valueOr 0 σ (M.data n.index).cost with
  | none =>
    simp only [reduceCtorEq, false_iff]
    rintro ⟨own, h, _⟩
    rw [← valueOr_iff, hv] at h; cases h
  | some own =>
    have huniq : ∀ P : ℚ → Prop, (∃ o, ValueIs σ (M.data n.index).cost 0 o ∧ P o) ↔ P own := by
      intro P
      constructor
      · rintro ⟨o, h, hp⟩
        rw [← valueOr_iff, hv] at h; cases h; exact hp
      · intro hp; exact ⟨own, valueOr_iff.1 hv, hp⟩
    rw [huniq]
    cases (M.data n.index).costAgg with
    | none => simp [eq_comm]
    | some g =>
      cases g with
      | sum => simp only [costLoop_iff, foldl_add_eq]
      | max => simp only [costLoop_iff, foldl_max_spec]
      | min => simp only [costLoop_iff, foldl_min_spec]

theorem costIs_unique (M : Model) (σ : Nat → Option ℚ) (n : TNode) (c d : ℚ) (hc : CostIs M σ n c) (hd : CostIs M σ n d) : c = d := by
  rw [← nodeCost_iff] at hc hd
  rw [hc] at hd
  simpa using hd

/-! ## Sums over edges and over nodes -/

theorem sum_single (n j : Nat) (v : ℚ) (h : j < n) : ((List.range n).map (fun k => if j = k then v else 0)).sum = v := by
  induction n with
  | zero => omega
  | succ n ih =>
    rw [List.range_succ, List.map_append, List.sum_append]
    by_cases hj : j = n
    · subst hj
      have : ((List.range j).map (fun k => if j = k then v else (0 : ℚ))).sum = 0 := by
        apply List.sum_eq_zero
        intro y hy
        obtain ⟨k, hk, rfl⟩ := List.mem_map.1 hy
        have := List.mem_range.1 hk
        rw [if_neg (by omega)]
      rw [this]; simp
    · rw [ih (by omega)]; simp [hj]

theorem sum_by_node (es : List Edge) (key : Edge → Nat) (n : Nat) (h : ∀ e ∈ es, key e < n) (G : Nat → ℚ) (g : Edge → ℚ) :
    ((List.range n).map (fun k => G k * ((es.filter (fun e => key e = k)).map g).sum)).sum
      = (es.map (fun e => G (key e) * g e)).sum := by
  induction es with
  | nil => simp
  | cons e es ih =>
    rw [List.forall_mem_cons] at h
    rw [List.map_cons, List.sum_cons, ← ih h.2]
    have : ∀ k, G k * (((e :: es).filter (fun e => key e = k)).map g).sum
        = (if key e = k then G (key e) * g e else 0) + G k * ((es.filter (fun e => key e = k)).map g).sum := by
      intro k
      rw [List.filter_cons]
      by_cases hk : key e = k
      · simp only [hk, decide_true, if_true, List.map_cons, List.sum_cons]; ring
      · simp [hk]
    simp only [this]
    rw [List.sum_map_add, sum_single n (key e) _ h.1]

/-- Costs paid at both ends of every edge are the costs of the nodes times their flows, if links are balanced. -/
theorem cost_by_node (M : Model) (hv : M.Valid) (f : Nat → ℚ) (hb : Balanced M.net f) (cost : TNode → ℚ)
    (out inn : TNode → ℚ)
    (hout : ∀ n ∈ M.net.nodes, n.outgoing ≠ [] → out n = match n.kind with | .link => cost n / 2 | .storage => -cost n | _ => cost n)
    (hin : ∀ n ∈ M.net.nodes, n.incoming ≠ [] → inn n = match n.kind with | .link => cost n / 2 | _ => cost n) :
    (M.net.edges.map (fun e => (((M.net.nodes[e.fromNode]?).map out).getD 0 + ((M.net.nodes[e.toNode]?).map inn).getD 0) * f e.index)).sum
      = totalCost M cost f := by
  obtain ⟨tb, htb⟩ := hv.built
  have wf := wf_of_build tb M.net htb
  have hconn : ∀ (k : Nat) (n : TNode), M.net.nodes[k]? = some n → Verif.Topology.Connected n.kind n.incoming n.outgoing := by
    intro k n hn
    have hvalid := (Verif.Topology.C49_build_iff tb).1 ⟨_, htb⟩
    obtain ⟨hl, _, hnodes, _⟩ := Verif.Topology.C49_topology tb _ htb
    have hk : k < tb.nodes.length := by rw [← hl]; exact (List.getElem?_eq_some_iff.1 hn).1
    have h1 := hnodes k _ (List.getElem?_eq_getElem hk)
    rw [hn] at h1
    simp only [Option.some.injEq] at h1
    rw [h1]
    exact hvalid.connected _ (List.getElem_mem hk)
  have hfrom : ∀ e ∈ M.net.edges, e.fromNode < M.net.nodes.length := by
    intro e he
    obtain ⟨k, hk⟩ := List.mem_iff_getElem?.1 he
    exact (wf.index k e hk).2.1
  have hto : ∀ e ∈ M.net.edges, e.toNode < M.net.nodes.length := by
    intro e he
    obtain ⟨k, hk⟩ := List.mem_iff_getElem?.1 he
    exact (wf.index k e hk).2.2
  have e1 := sum_by_node M.net.edges (·.fromNode) M.net.nodes.length hfrom (fun k => ((M.net.nodes[k]?).map out).getD 0) (fun e => f e.index)
  have e2 := sum_by_node M.net.edges (·.toNode) M.net.nodes.length hto (fun k => ((M.net.nodes[k]?).map inn).getD 0) (fun e => f e.index)
  have hsplit : (M.net.edges.map (fun e => (((M.net.nodes[e.fromNode]?).map out).getD 0 + ((M.net.nodes[e.toNode]?).map inn).getD 0) * f e.index)).sum
      = (M.net.edges.map (fun e => ((M.net.nodes[e.fromNode]?).map out).getD 0 * f e.index)).sum
        + (M.net.edges.map (fun e => ((M.net.nodes[e.toNode]?).map inn).getD 0 * f e.index)).sum := by
    rw [← List.sum_map_add]
    congr 1
    apply List.map_congr_left
    intro e _
    ring
  rw [hsplit, ← e1, ← e2, ← List.sum_map_add]
  unfold totalCost
  have hnodes : M.net.nodes.map (fun n => cost n * nodeFlow f n)
      = (List.range M.net.nodes.length).map (fun k => ((M.net.nodes[k]?).map (fun n => cost n * nodeFlow f n)).getD 0) := by
    apply List.ext_getElem?
    intro k
    rw [List.getElem?_map, List.getElem?_map]
    by_cases hk : k < M.net.nodes.length
    · rw [List.getElem?_range hk, List.getElem?_eq_getElem hk]; simp [List.getElem?_eq_getElem hk]
    · rw [List.getElem?_eq_none (by omega), List.getElem?_eq_none (by simpa using hk)]; rfl
  rw [hnodes]
  congr 1
  apply List.map_congr_left
  intro k hk
  have hk := List.mem_range.1 hk
  have hn := List.getElem?_eq_getElem hk
  set n := M.net.nodes[k] with hnd
  have hmem : n ∈ M.net.nodes := List.getElem_mem hk
  simp only [hn, Option.map_some, Option.getD_some]
  have ho : (M.net.edges.filter (fun e => e.fromNode = k)).map (fun e => f e.index) = n.outgoing.map f := by
    rw [wf.outgoing k n hn, List.map_map]; rfl
  have hi : (M.net.edges.filter (fun e => e.toNode = k)).map (fun e => f e.index) = n.incoming.map f := by
    rw [wf.incoming k n hn, List.map_map]; rfl
  rw [ho, hi]
  have hc := hconn k n hn
  have hout' : out n * (n.outgoing.map f).sum = (match n.kind with | .link => cost n / 2 | .storage => -cost n | _ => cost n) * (n.outgoing.map f).sum := by
    by_cases h : n.outgoing = []
    · rw [h, List.map_nil, List.sum_nil, mul_zero, mul_zero]
    · rw [hout n hmem h]
  have hin' : inn n * (n.incoming.map f).sum = (match n.kind with | .link => cost n / 2 | _ => cost n) * (n.incoming.map f).sum := by
    by_cases h : n.incoming = []
    · rw [h, List.map_nil, List.sum_nil, mul_zero, mul_zero]
    · rw [hin n hmem h]
  rw [hout', hin']
  unfold nodeFlow
  cases hkind : n.kind with
  | input => rw [hkind] at hc; simp [hc.1]
  | output => rw [hkind] at hc; simp [hc.2]
  | link =>
    simp only
    rw [hb n hmem hkind]; ring
  | storage => simp only; ring

end Verif.Solver
