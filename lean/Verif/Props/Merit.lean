import Verif.Lemmas.Merit
import Verif.Props.Simulation

/-!
# C74: an allocation of least cost leaves no bargain

The flows of a solved step have the least total cost (`LeastCost`). These theorems say what that means for an observer of flows: no
change there is room for lowers the cost; a supply and a demand with a way of negative cost between them are held back by a limit on
that way; flow does not take a way dearer than another with room; and of two links side by side the cheaper one is filled first.
-/

namespace Verif.Solver

open Verif.State (NodeKind Edge)
open Verif.Topology (Network TNode)

variable {M : Model} {st : StepState} {f : Nat → ℚ} {big negBig : ℚ} {cost : TNode → ℚ}

/-- **C74 (least cost).** If the values of the columns satisfy the program of a step with the least objective, their flows are of
least cost. -/
theorem C74_solved (M : Model) (hv : M.Valid) (hx : M.NoExclusivity) (hf : M.FactorsOk) (big negBig : ℚ) (s s' : Built)
    (hs : Reach M big negBig [] s) (st : StepState) (hd : 0 < st.days) (h : step M s st = .ok s') (cost : TNode → ℚ)
    (hcost : ∀ n ∈ M.net.nodes, n.incoming ≠ [] ∨ n.outgoing ≠ [] → CostIs M st.metric n (cost n)) (x : Nat → ℚ)
    (hx1 : s'.lp.Feasible x) (hx2 : ∀ y, s'.lp.Feasible y → s'.lp.objective x ≤ s'.lp.objective y) :
    LeastCost M big negBig st cost (s'.flow x) := by
  obtain ⟨h1, h2⟩ := C20_optimal M hv hx hf big negBig s s' hs st hd h cost hcost x hx1 hx2
  exact ⟨h1, ((C56_feasible M hv hx hf big negBig s s' hs st hd h x).1 hx1).2, h2⟩

/-- **C74 (no bargain).** A balanced change of flows that lowers only edges with flow, and that nodes, aggregated nodes and
virtual storages have room for, does not lower the cost. -/
theorem C74_no_bargain (hd : 0 < st.days) (hl : LeastCost M big negBig st cost f) (hi : Inside M big negBig f) (g : Nat → ℚ)
    (hb : Balanced M.net g) (he : ∀ e < M.net.edges.length, g e < 0 → 0 < f e) (hn : NodesHaveRoom M st f g)
    (hg : GroupsHaveRoom M st f g) : 0 ≤ totalCost M cost g :=
  no_bargain hd hl hi hb he hn hg

theorem leave_eq {u : TNode} (h : Source u) (cost : TNode → ℚ) : leaveCost cost u = takeCost cost u := by
  unfold leaveCost takeCost
  rcases h with h | h <;> simp [h]

theorem enter_eq {v : TNode} (h : Sink v) (cost : TNode → ℚ) : enterCost cost v = cost v := by
  unfold enterCost
  rcases h with h | h <;> simp [h]

theorem Source.not_link {u : TNode} (h : Source u) : u.kind ≠ .link := by rcases h with h | h <;> simp [h]

theorem Sink.not_link {u : TNode} (h : Sink u) : u.kind ≠ .link := by rcases h with h | h <;> simp [h]

/-- **C74 (service).** Where a further unit can be sent from a source to a sink, it would not pay. -/
theorem C74_serve (hv : M.Valid) (hd : 0 < st.days) (hl : LeastCost M big negBig st cost f) (hi : Inside M big negBig f)
    {u v : TNode} {es : List Nat} {ls : List TNode} (hw : Way M.net u es ls v) (hu : Source u) (hs : Sink v)
    (hn : NodesHaveRoom M st f (along es)) (hg : GroupsHaveRoom M st f (along es)) : 0 ≤ wayCost cost u ls v := by
  have wf := Created.wf hv
  have := C74_no_bargain hd hl hi (along es) (balanced_way wf hw hu.not_link hs.not_link)
    (fun e _ h => absurd h (not_lt.2 (by unfold along; positivity))) hn hg
  rw [cost_way wf rfl cost hw, leave_eq hu, enter_eq hs] at this
  exact this

/-- **C74 (bottleneck).** If sending a unit from a source to a sink pays, something on the way holds it back: an input, link or
output is at its maximum flow, the storage it would come from is at its minimum volume, or the storage it would go to is at its
maximum volume. The way has no node in an aggregated node or virtual storage. -/
theorem C74_bottleneck (hv : M.Valid) (hd : 0 < st.days) (hl : LeastCost M big negBig st cost f) (hi : Inside M big negBig f)
    {u v : TNode} {es : List Nat} {ls : List TNode} (hw : Way M.net u es ls v) (hu : Source u) (hs : Sink v)
    (ha : Apart M (u :: v :: ls)) (hc : wayCost cost u ls v < 0) :
    (∃ n ∈ u :: v :: ls, n.kind ≠ .storage ∧ Full M st f n) ∨ (u.kind = .storage ∧ Drained M st f u) ∨
      (v.kind = .storage ∧ Brimful M st f v) := by
  have wf := Created.wf hv
  obtain ⟨mu, mv, ml, _⟩ := way_ends hw
  by_contra hno
  push Not at hno
  obtain ⟨h1, h2, h3⟩ := hno
  have hflow := fun n hn => nodeFlow_way wf hw (n := n) hn
  have hzero : ∀ n ∈ M.net.nodes, n ∉ u :: v :: ls → nodeFlow (along es) n = 0 := by
    intro n hn hm
    simp only [List.mem_cons, not_or] at hm
    rw [hflow n hn, if_neg hm.1, if_neg hm.2.1, List.count_eq_zero.2 hm.2.2]
    cases n.kind <;> simp
  have hpos : ∀ n ∈ M.net.nodes, n.kind ≠ .storage → 0 ≤ nodeFlow (along es) n := by
    intro n hn hk
    rw [hflow n hn]
    cases hkk : n.kind with
    | storage => exact absurd hkk hk
    | input => simp only; split <;> norm_num
    | output => simp only; split <;> norm_num
    | link =>
      simp only
      have : (0 : ℚ) ≤ (ls.count n : ℚ) := by positivity
      split <;> linarith
  refine absurd (C74_serve hv hd hl hi hw hu hs ⟨?_, ?_, ?_, ?_⟩ (groups_apart wf ha hzero)) (not_le.2 hc)
  · intro n hn hk h
    exact absurd h (not_lt.2 (hpos n hn hk))
  · intro n hn hk h
    have hm : n ∈ u :: v :: ls := by by_contra hm; rw [hzero n hn hm] at h; exact lt_irrefl _ h
    exact (full_or hl.allowed hn hk).resolve_left (h1 n hm hk)
  · intro n hn hk h
    have hnu : n = u := by
      by_contra hne
      rw [hflow n hn, hk] at h
      simp only [if_neg hne] at h
      split at h <;> linarith
    subst hnu
    exact (drained_or hl.allowed hn hk).resolve_left (h2 hk)
  · intro n hn hk h
    have hnv : n = v := by
      by_contra hne
      rw [hflow n hn, hk] at h
      simp only [if_neg hne] at h
      split at h <;> linarith
    subst hnv
    exact (brimful_or hl.allowed hn hk).resolve_left (h3 hk)

/-- **C74 (no water moved at a loss).** If a unit less can be sent by a way that carries flow, sending it does not cost more than
it brings. -/
theorem C74_no_loss (hv : M.Valid) (hd : 0 < st.days) (hl : LeastCost M big negBig st cost f) (hi : Inside M big negBig f)
    {u v : TNode} {es : List Nat} {ls : List TNode} (hw : Way M.net u es ls v) (hu : Source u) (hs : Sink v)
    (hf : ∀ e ∈ es, 0 < f e) (hn : NodesHaveRoom M st f (instead [] es)) (hg : GroupsHaveRoom M st f (instead [] es)) :
    wayCost cost u ls v ≤ 0 := by
  have wf := Created.wf hv
  have hb : Balanced M.net (instead [] es) := by
    have e : instead [] es = shift (along []) (along es) (-1) := by funext e; simp [instead, shift]; ring
    intro n hm hk
    have h0 : ∀ l : List Nat, (l.map (along [])).sum = 0 := by
      intro l
      have : l.map (along []) = l.map (fun _ => (0 : ℚ)) := List.map_congr_left (fun _ _ => by simp [along])
      simp [this]
    rw [e, sum_shift, sum_shift, balanced_way wf hw hu.not_link hs.not_link n hm hk, h0, h0]
  have := C74_no_bargain hd hl hi (instead [] es) hb (fun e _ h => ?_) hn hg
  · rw [totalCost_sub, cost_way wf rfl cost hw, leave_eq hu, enter_eq hs] at this
    have h0 : totalCost M cost (along []) = 0 := by
      unfold totalCost
      have : M.net.nodes.map (fun n => cost n * nodeFlow (along []) n) = M.net.nodes.map (fun _ => (0 : ℚ)) := by
        apply List.map_congr_left
        intro n _
        have h0 : ∀ l : List Nat, (l.map (along [])).sum = 0 := by
          intro l
          have : l.map (along []) = l.map (fun _ => (0 : ℚ)) := List.map_congr_left (fun _ _ => by simp [along])
          simp [this]
        unfold nodeFlow
        cases n.kind <;> simp [h0]
      simp [this]
    rw [h0] at this
    unfold wayCost
    linarith
  · by_contra hc
    have : e ∉ es := fun hm => hc (hf e hm)
    simp [instead, along, List.count_eq_zero.2 this] at h

/-- **C74 (cheapest way).** Flow does not take a way dearer than another between the same two nodes if it could be moved
there. -/
theorem C74_reroute (hv : M.Valid) (hd : 0 < st.days) (hl : LeastCost M big negBig st cost f) (hi : Inside M big negBig f)
    {u v : TNode} {es es' : List Nat} {ls ls' : List TNode} (hw : Way M.net u es ls v) (hw' : Way M.net u es' ls' v)
    (hf : ∀ e ∈ es', 0 < f e) (hn : NodesHaveRoom M st f (instead es es')) (hg : GroupsHaveRoom M st f (instead es es')) :
    (ls'.map cost).sum ≤ (ls.map cost).sum := by
  have wf := Created.wf hv
  have := C74_no_bargain hd hl hi (instead es es') (balanced_instead wf hw hw') (fun e _ h => ?_) hn hg
  · rw [totalCost_sub, cost_way wf rfl cost hw, cost_way wf rfl cost hw'] at this
    linarith
  · by_contra hc
    have : e ∉ es' := fun hm => hc (hf e hm)
    simp only [instead, along, List.count_eq_zero.2 this] at h
    have h0 : (0 : ℚ) ≤ (es.count e : ℚ) := by positivity
    simp only [Nat.cast_zero, sub_zero] at h
    linarith

theorem exists_pos {l : List Nat} (h : 0 < (l.map f).sum) : ∃ e ∈ l, 0 < f e := by
  by_contra hno
  push Not at hno
  have : (l.map f).sum ≤ 0 := by
    clear h
    induction l with
    | nil => simp
    | cons a l ih =>
      simp only [List.map_cons, List.sum_cons]
      linarith [hno a (List.mem_cons_self ..), ih (fun e he => hno e (List.mem_cons_of_mem _ he))]
  linarith

theorem leads_of_out (wf : WF M.net) {n : TNode} (hn : n ∈ M.net.nodes) {e : Nat} (he : e ∈ n.outgoing) : ∃ v, Leads M.net e n v := by
  obtain ⟨k, hk⟩ := List.mem_iff_getElem?.1 hn
  have hi := wf.nodeIndex k n hk
  obtain ⟨⟨i, a, b⟩, h1, h2⟩ := (wf.mem_outgoing hk e).1 he
  obtain ⟨h3, h4, h5⟩ := wf.index e _ h1
  simp only at h2 h3 h4 h5
  have hv := List.getElem?_eq_getElem h5
  refine ⟨M.net.nodes[b], by rw [hi]; exact hk, by rw [wf.nodeIndex b _ hv]; exact hv, ?_⟩
  rw [h1, wf.nodeIndex b _ hv, hi, h2, h3]

theorem leads_of_in (wf : WF M.net) {n : TNode} (hn : n ∈ M.net.nodes) {e : Nat} (he : e ∈ n.incoming) : ∃ u, Leads M.net e u n := by
  obtain ⟨k, hk⟩ := List.mem_iff_getElem?.1 hn
  have hi := wf.nodeIndex k n hk
  obtain ⟨⟨i, a, b⟩, h1, h2⟩ := (wf.mem_incoming hk e).1 he
  obtain ⟨h3, h4, h5⟩ := wf.index e _ h1
  simp only at h2 h3 h4 h5
  have hv := List.getElem?_eq_getElem h4
  refine ⟨M.net.nodes[a], by rw [wf.nodeIndex a _ hv]; exact hv, by rw [hi]; exact hk, ?_⟩
  rw [h1, wf.nodeIndex a _ hv, hi, h2, h3]

/-- **C74 (merit order, groups with room).** Of two links side by side the dearer one carries flow beyond its minimum only if the
cheaper one is at its maximum, when aggregated nodes that tell the two apart have room for the change. -/
theorem C74_merit_order_room (hv : M.Valid) (hd : 0 < st.days) (hl : LeastCost M big negBig st cost f) (hi : Inside M big negBig f)
    {a b : TNode} (hma : a ∈ M.net.nodes) (hmb : b ∈ M.net.nodes) (hka : a.kind = .link) (hkb : b.kind = .link)
    (hbes : Beside M.net a b) (hal : AlikeOrRoom M st f a b) (hc : cost a < cost b) :
    Full M st f a ∨ Least M st f b ∨ nodeFlow f b = 0 := by
  have wf := Created.wf hv
  by_contra hno
  push Not at hno
  obtain ⟨h1, h2, h3⟩ := hno
  have hfb : nodeFlow f b = (b.outgoing.map f).sum := by simp [nodeFlow, hkb]
  have hbal := hl.allowed.balanced b hmb hkb
  have hin : ∀ e, e ∈ b.outgoing → 0 ≤ f e := fun e he =>
    hl.allowed.nonneg e (edges_in_range wf b hmb e (Or.inr he))
  have h0 : 0 ≤ (b.outgoing.map f).sum := List.sum_nonneg (by
    intro x hx
    obtain ⟨e, he, rfl⟩ := List.mem_map.1 hx
    exact hin e he)
  have hpos : 0 < (b.outgoing.map f).sum := lt_of_le_of_ne h0 (by rw [← hfb]; exact Ne.symm h3)
  obtain ⟨e2', he2, hf2⟩ := exists_pos hpos
  obtain ⟨e1', he1, hf1⟩ := exists_pos (hbal ▸ hpos)
  obtain ⟨v, hlv⟩ := leads_of_out wf hmb he2
  obtain ⟨u, hlu⟩ := leads_of_in wf hmb he1
  obtain ⟨e1, hlu'⟩ := hbes.1 _ _ hlu
  obtain ⟨e2, hlv'⟩ := hbes.2 _ _ hlv
  have hw : Way M.net u [e1, e2] [a] v := .cons _ _ _ _ _ _ hlu' hka (.last _ _ _ hlv')
  have hw' : Way M.net u [e1', e2'] [b] v := .cons _ _ _ _ _ _ hlu hkb (.last _ _ _ hlv)
  have e0 : instead [e1, e2] [e1', e2'] = shift (along [e1, e2]) (along [e1', e2']) (-1) := by
    funext e; simp [instead, shift]; ring
  have hflow : ∀ n ∈ M.net.nodes, nodeFlow (instead [e1, e2] [e1', e2']) n = (if n = a then 1 else 0) - (if n = b then 1 else 0) := by
    intro n hn
    rw [e0, nodeFlow_shift, nodeFlow_way wf hw hn, nodeFlow_way wf hw' hn]
    have hca : n.kind ≠ .link → n ≠ a ∧ n ≠ b := fun h => ⟨by rintro rfl; exact h hka, by rintro rfl; exact h hkb⟩
    have hcount : ∀ c : TNode, (([c].count n : Nat) : ℚ) = if n = c then 1 else 0 := by
      intro c
      rw [List.count_cons, List.count_nil]
      by_cases h : n = c
      · subst h; simp
      · simp [h, Ne.symm h]
    cases hk : n.kind with
    | link => simp only [hcount]; ring
    | _ =>
      obtain ⟨x, y⟩ := hca (by rw [hk]; simp)
      rw [if_neg x, if_neg y]
      ring
  refine absurd (C74_reroute hv hd hl hi hw hw' ?_ ⟨?_, ?_, ?_, ?_⟩ (groups_alike hal ?_)) ?_
  · intro e he
    simp only [List.mem_cons, List.not_mem_nil, or_false] at he
    rcases he with rfl | rfl <;> assumption
  · intro n hn hk h
    have : n = b := by
      by_contra hne
      rw [hflow n hn, if_neg hne] at h
      split at h <;> linarith
    subst this
    exact (least_or hl.allowed hn hk).resolve_left h2
  · intro n hn hk h
    have : n = a := by
      by_contra hne
      rw [hflow n hn, if_neg hne] at h
      split at h <;> linarith
    subst this
    exact (full_or hl.allowed hn hk).resolve_left h1
  · intro n hn hk h
    rw [hflow n hn, if_neg (by rintro rfl; rw [hka] at hk; cases hk), if_neg (by rintro rfl; rw [hkb] at hk; cases hk)] at h
    linarith
  · intro n hn hk h
    rw [hflow n hn, if_neg (by rintro rfl; rw [hka] at hk; cases hk), if_neg (by rintro rfl; rw [hkb] at hk; cases hk)] at h
    linarith
  · intro i
    unfold flowAt
    cases hn : M.net.nodes[i]? with
    | none =>
      have hlen := List.getElem?_eq_none_iff.1 hn
      have hne : ∀ c ∈ M.net.nodes, i ≠ c.index := by
        intro c hc he
        obtain ⟨k, hk⟩ := List.mem_iff_getElem?.1 hc
        have := wf.nodeIndex k c hk
        have := (List.getElem?_eq_some_iff.1 hk).1
        omega
      rw [if_neg (hne a hma), if_neg (hne b hmb)]; simp
    | some n =>
      simp only [Option.map_some, Option.getD_some]
      have hmn := List.mem_of_getElem? hn
      rw [hflow n hmn]
      have hidx : ∀ c ∈ M.net.nodes, (n = c ↔ i = c.index) := by
        intro c hc
        obtain ⟨k, hk⟩ := List.mem_iff_getElem?.1 hc
        have h4 := wf.nodeIndex k c hk
        constructor
        · rintro rfl; exact (wf.nodeIndex i n hn).symm
        · intro h5
          rw [h5, h4, hk] at hn
          exact (Option.some.inj hn).symm
      simp only [hidx a hma, hidx b hmb]
  · simp only [List.map_cons, List.map_nil, List.sum_cons, List.sum_nil, add_zero, not_le]
    exact hc

/-- **C74 (merit order).** Of two links side by side that aggregated nodes and virtual storages do not tell apart, the dearer one
carries flow beyond its minimum only if the cheaper one is at its maximum. -/
theorem C74_merit_order (hv : M.Valid) (hd : 0 < st.days) (hl : LeastCost M big negBig st cost f) (hi : Inside M big negBig f)
    {a b : TNode} (hma : a ∈ M.net.nodes) (hmb : b ∈ M.net.nodes) (hka : a.kind = .link) (hkb : b.kind = .link)
    (hbes : Beside M.net a b) (hal : Alike M a b) (hc : cost a < cost b) :
    Full M st f a ∨ Least M st f b ∨ nodeFlow f b = 0 :=
  C74_merit_order_room hv hd hl hi hma hmb hka hkb hbes ⟨fun g hg => Or.inl (hal.1 g hg), hal.2⟩ hc

end Verif.Solver
