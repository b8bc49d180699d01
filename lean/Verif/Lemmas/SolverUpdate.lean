import Verif.Lemmas.Solver

/-! # Lemmas on updating the program -/

namespace Verif.Solver

open Verif.State (NodeKind Edge)
open Verif.Topology (Network TNode)

/-! ## Bounds and pushed coefficients -/

/-- Apply bounds and push coefficients. -/
def Lp.act (lp : Lp) (bs : List (Nat × ℚ × ℚ)) (P : List (Nat × Nat × ℚ)) : Option Lp :=
  (lp.applyBounds bs).map (fun l => { l with coefficientsToUpdate := l.coefficientsToUpdate ++ P })

theorem applyBounds_coefs (bs : List (Nat × ℚ × ℚ)) : ∀ (lp : Lp) (cs : List (Nat × Nat × ℚ)),
    ({ lp with coefficientsToUpdate := cs } : Lp).applyBounds bs
      = (lp.applyBounds bs).map (fun l => { l with coefficientsToUpdate := cs }) := by
  induction bs with
  | nil => intro lp cs; rfl
  | cons b bs ih =>
    obtain ⟨r, l, u⟩ := b
    intro lp cs
    simp only [Lp.applyBounds, Lp.applyRowBounds]
    split_ifs with h
    · simp only [Option.bind_some]
      rw [← ih]
    · rfl

theorem applyBounds_keeps (bs : List (Nat × ℚ × ℚ)) (lp lp' : Lp) (h : lp.applyBounds bs = some lp') :
    lp'.coefficientsToUpdate = lp.coefficientsToUpdate := by
  obtain ⟨⟨lo, hi, e⟩, _⟩ := applyBounds_spec bs lp lp' h
  rw [e]

theorem applyBounds_append (bs bs' : List (Nat × ℚ × ℚ)) : ∀ lp : Lp,
    lp.applyBounds (bs ++ bs') = (lp.applyBounds bs).bind (·.applyBounds bs') := by
  induction bs with
  | nil => intro lp; rfl
  | cons b bs ih =>
    obtain ⟨r, l, u⟩ := b
    intro lp
    simp only [List.cons_append, Lp.applyBounds]
    cases lp.applyRowBounds r l u with
    | none => rfl
    | some lp1 => simp only [Option.bind_some, ih]

theorem act_nil (lp : Lp) : lp.act [] [] = some lp := by simp [Lp.act, Lp.applyBounds]

theorem act_act (lp : Lp) (bs bs' : List (Nat × ℚ × ℚ)) (P P' : List (Nat × Nat × ℚ)) :
    (lp.act bs P).bind (·.act bs' P') = lp.act (bs ++ bs') (P ++ P') := by
  unfold Lp.act
  rw [applyBounds_append]
  cases h : lp.applyBounds bs with
  | none => rfl
  | some l =>
    simp only [Option.map_some, Option.bind_some]
    rw [applyBounds_coefs]
    cases h' : l.applyBounds bs' with
    | none => rfl
    | some l' =>
      simp only [Option.map_some, List.append_assoc, Option.some.injEq]
      rw [applyBounds_keeps bs' l l' h']

theorem act_bounds (lp : Lp) (r : Nat) (l u : ℚ) : lp.act [(r, l, u)] [] = lp.applyRowBounds r l u := by
  simp only [Lp.act, Lp.applyBounds, Option.bind_fun_some, List.append_nil]
  cases lp.applyRowBounds r l u <;> rfl

theorem act_push (lp : Lp) (r c : Nat) (v : ℚ) : lp.act [] [(r, c, v)] = some (lp.pushCoefficient r c v) := rfl

/-! ## The loops -/

/-- Bounds of the continuous rows of nodes. -/
theorem nodeBoundsLoop_ok (M : Model) (st : StepState) (new : List (Nat × Row × TNode))
    (hn : ∀ p ∈ new, M.net.nodes[p.2.2.index]? = some p.2.2) : ∀ (lp lp' : Lp),
    nodeBoundsLoop M st (new.map (fun p => ⟨p.1, p.2.2.index, .continuous⟩)) lp = .ok lp' ↔
    ∃ bs, bs.map some = new.map (fun p => (nodeBounds p.2.2 (M.data p.2.2.index) st).map (fun b => (p.1, b.1, b.2))) ∧
      lp.act bs [] = some lp' := by
  induction new with
  | nil =>
    intro lp lp'
    simp only [List.map_nil, nodeBoundsLoop, Except.ok.injEq, List.map_eq_nil_iff, exists_eq_left, act_nil, Option.some.injEq]
  | cons p new ih =>
    intro lp lp'
    rw [List.forall_mem_cons] at hn
    simp only [List.map_cons, nodeBoundsLoop, hn.1]
    cases hb : nodeBounds p.2.2 (M.data p.2.2.index) st with
    | none =>
      simp only [Option.map_none, reduceCtorEq, false_iff, not_exists, not_and]
      intro bs h
      cases bs <;> simp at h
    | some b =>
      obtain ⟨lo, hi⟩ := b
      simp only [Option.map_some]
      cases ha : lp.applyRowBounds p.1 lo hi with
      | none =>
        simp only [reduceCtorEq, false_iff, not_exists, not_and]
        rintro bs h h'
        cases bs with
        | nil => simp at h
        | cons b bs =>
          simp only [List.map_cons, List.cons.injEq, Option.some.injEq] at h
          rw [h.1, Lp.act, Lp.applyBounds, ha] at h'
          simp at h'
      | some lp1 =>
        simp only [ih hn.2 lp1 lp']
        constructor
        · rintro ⟨bs, h1, h2⟩
          refine ⟨(p.1, lo, hi) :: bs, by simp [h1], ?_⟩
          have := act_act lp [(p.1, lo, hi)] bs [] []
          rw [act_bounds, ha, Option.bind_some] at this
          rw [this] at h2
          simpa using h2
        · rintro ⟨bs, h1, h2⟩
          cases bs with
          | nil => simp at h1
          | cons b bs =>
            simp only [List.map_cons, List.cons.injEq, Option.some.injEq] at h1
            refine ⟨bs, h1.2, ?_⟩
            have := act_act lp [(p.1, lo, hi)] bs [] []
            rw [act_bounds, ha, Option.bind_some] at this
            rw [this]
            rw [h1.1] at h2
            simpa using h2

/-- Bounds of an aggregated node. -/
def aggBounds (st : StepState) (a : AggNode) : Option (ℚ × ℚ) :=
  match valueOr 0 st.metric a.minFlow, valueOr f64MAX st.metric a.maxFlow with
  | some lo, some hi => some (lo, hi)
  | _, _ => none

/-- Bounds of the rows of aggregated nodes. -/
theorem aggLoop_ok (st : StepState) (new : List (Nat × AggNode)) : ∀ (lp lp' : Lp),
    aggLoop st new lp = .ok lp' ↔
    ∃ bs, bs.map some = new.map (fun p => (aggBounds st p.2).map (fun b => (p.1, b.1, b.2))) ∧ lp.act bs [] = some lp' := by
  induction new with
  | nil =>
    intro lp lp'
    simp only [aggLoop, Except.ok.injEq, List.map_nil, List.map_eq_nil_iff, exists_eq_left, act_nil, Option.some.injEq]
  | cons p new ih =>
    obtain ⟨i, a⟩ := p
    intro lp lp'
    simp only [List.map_cons, aggLoop, aggBounds]
    cases h1 : valueOr 0 st.metric a.minFlow with
    | none =>
      simp only [Option.map_none, reduceCtorEq, false_iff, not_exists, not_and]
      intro bs h
      cases bs <;> simp at h
    | some lo =>
      cases h2 : valueOr f64MAX st.metric a.maxFlow with
      | none =>
        simp only [Option.map_none, reduceCtorEq, false_iff, not_exists, not_and]
        intro bs h
        cases bs <;> simp at h
      | some hi =>
        simp only [Option.map_some]
        cases ha : lp.applyRowBounds i lo hi with
        | none =>
          simp only [reduceCtorEq, false_iff, not_exists, not_and]
          rintro bs h h'
          cases bs with
          | nil => simp at h
          | cons b bs =>
            simp only [List.map_cons, List.cons.injEq, Option.some.injEq] at h
            rw [h.1, Lp.act, Lp.applyBounds, ha] at h'
            simp at h'
        | some lp1 =>
          simp only [ih lp1 lp']
          have hact : ∀ bs, lp1.act bs [] = lp.act ((i, lo, hi) :: bs) [] := by
            intro bs
            have := act_act lp [(i, lo, hi)] bs [] []
            rw [act_bounds, ha, Option.bind_some] at this
            simpa using this
          constructor
          · rintro ⟨bs, h1, h2⟩
            exact ⟨(i, lo, hi) :: bs, by simpa [aggBounds] using h1, by rw [← hact]; exact h2⟩
          · rintro ⟨bs, h1, h2⟩
            cases bs with
            | nil => simp at h1
            | cons b bs =>
              simp only [List.map_cons, List.cons.injEq, Option.some.injEq] at h1
              refine ⟨bs, h1.2, ?_⟩
              rw [hact, ← h1.1]; exact h2

/-- Bounds of the row of a virtual storage. -/
def vsRowBounds (st : StepState) (negBig big : ℚ) (v : Nat) : Option (ℚ × ℚ) :=
  if st.vsActive v then (st.vsBounds v).map (fun p => (-p.1 / st.days, p.2 / st.days)) else some (negBig, big)

/-- Bounds of the rows of virtual storages. -/
theorem vsLoop_ok (st : StepState) (new : List (Nat × Nat)) : ∀ (lp lp' : Lp),
    vsLoop st new lp = .ok lp' ↔
    ∃ bs, bs.map some = new.map (fun p => (vsRowBounds st lp.f64NegMax lp.f64Max p.2).map (fun b => (p.1, b.1, b.2))) ∧
      lp.act bs [] = some lp' := by
  induction new with
  | nil =>
    intro lp lp'
    simp only [vsLoop, Except.ok.injEq, List.map_nil, List.map_eq_nil_iff, exists_eq_left, act_nil, Option.some.injEq]
  | cons p new ih =>
    obtain ⟨i, v⟩ := p
    intro lp lp'
    have hrec : ∀ lo hi lp1, lp.applyRowBounds i lo hi = some lp1 →
        vsRowBounds st lp.f64NegMax lp.f64Max v = some (lo, hi) →
        (vsLoop st new lp1 = .ok lp' ↔ ∃ bs, bs.map some =
          ((i, v) :: new).map (fun p => (vsRowBounds st lp.f64NegMax lp.f64Max p.2).map (fun b => (p.1, b.1, b.2))) ∧
          lp.act bs [] = some lp') := by
      intro lo hi lp1 ha hb
      have hact : ∀ bs, lp1.act bs [] = lp.act ((i, lo, hi) :: bs) [] := by
        intro bs
        have := act_act lp [(i, lo, hi)] bs [] []
        rw [act_bounds, ha, Option.bind_some] at this
        simpa using this
      obtain ⟨_, _, e⟩ := applyRowBounds_some ha
      have e1 : lp1.f64NegMax = lp.f64NegMax := by rw [e]
      have e2 : lp1.f64Max = lp.f64Max := by rw [e]
      rw [ih lp1 lp', e1, e2]
      constructor
      · rintro ⟨bs, h1, h2⟩
        exact ⟨(i, lo, hi) :: bs, by simp [hb, h1], by rw [← hact]; exact h2⟩
      · rintro ⟨bs, h1, h2⟩
        cases bs with
        | nil => simp at h1
        | cons b bs =>
          simp only [List.map_cons, List.cons.injEq, hb, Option.map_some, Option.some.injEq] at h1
          refine ⟨bs, h1.2, ?_⟩
          rw [hact, ← h1.1]; exact h2
    have hfail : ∀ lo hi, lp.applyRowBounds i lo hi = none → vsRowBounds st lp.f64NegMax lp.f64Max v = some (lo, hi) →
        ¬ ∃ bs, bs.map some =
          ((i, v) :: new).map (fun p => (vsRowBounds st lp.f64NegMax lp.f64Max p.2).map (fun b => (p.1, b.1, b.2))) ∧
          lp.act bs [] = some lp' := by
      rintro lo hi ha hb ⟨bs, h1, h2⟩
      cases bs with
      | nil => simp at h1
      | cons b bs =>
        simp only [List.map_cons, List.cons.injEq, hb, Option.map_some, Option.some.injEq] at h1
        rw [h1.1, Lp.act, Lp.applyBounds, ha] at h2
        simp at h2
    simp only [vsLoop]
    by_cases hact : st.vsActive v = true
    · rw [if_pos hact]
      cases hvb : st.vsBounds v with
      | none =>
        simp only [reduceCtorEq, false_iff, not_exists, not_and]
        intro bs h
        cases bs <;> simp [vsRowBounds, hact, hvb] at h
      | some b =>
        obtain ⟨av, mi⟩ := b
        have hb : vsRowBounds st lp.f64NegMax lp.f64Max v = some (-av / st.days, mi / st.days) := by
          simp [vsRowBounds, hact, hvb]
        simp only
        cases ha : lp.applyRowBounds i (-av / st.days) (mi / st.days) with
        | none => simp only [reduceCtorEq, false_iff]; exact hfail _ _ ha hb
        | some lp1 => exact hrec _ _ lp1 ha hb
    · rw [if_neg hact]
      have hb : vsRowBounds st lp.f64NegMax lp.f64Max v = some (lp.f64NegMax, lp.f64Max) := by
        simp [vsRowBounds, hact]
      cases ha : lp.applyRowBounds i lp.f64NegMax lp.f64Max with
      | none => simp only [reduceCtorEq, false_iff]; exact hfail _ _ ha hb
      | some lp1 => exact hrec _ _ lp1 ha hb

/-! ### Factors -/

theorem pushEdges_ok (cols : List Nat) (row : Nat) (k : ℚ) (es : List Nat) : ∀ lp : Lp, (∀ e ∈ es, e < cols.length) →
    pushEdges cols row k es lp = lp.act [] (es.map (fun e => (row, cols.getD e 0, k))) := by
  induction es with
  | nil => intro lp _; simp [pushEdges, Lp.act, Lp.applyBounds]
  | cons e es ih =>
    intro lp h
    rw [List.forall_mem_cons] at h
    have hc : cols[e]? = some (cols.getD e 0) := by
      rw [List.getD_eq_getElem?_getD, List.getElem?_eq_getElem h.1]; rfl
    simp only [pushEdges, hc]
    rw [ih _ h.2]
    have := act_act lp [] [] [(row, cols.getD e 0, k)] (es.map (fun e => (row, cols.getD e 0, k)))
    rw [act_push, Option.bind_some] at this
    simpa using this

theorem pushNode_ok (cols : List Nat) (row : Nat) (n : TNode) (k : ℚ) (lp : Lp)
    (h : ∀ e, e ∈ n.incoming ∨ e ∈ n.outgoing → e < cols.length) :
    pushNode cols row n k lp = lp.act [] ((edgesOf n).map (fun e => (row, cols.getD e 0, k))) := by
  have hin : ∀ e ∈ n.incoming, e < cols.length := fun e he => h e (Or.inl he)
  have hout : ∀ e ∈ n.outgoing, e < cols.length := fun e he => h e (Or.inr he)
  unfold pushNode edgesOf
  cases n.kind with
  | link => exact pushEdges_ok _ _ _ _ _ hout
  | input => exact pushEdges_ok _ _ _ _ _ hout
  | output => exact pushEdges_ok _ _ _ _ _ hin
  | storage =>
    simp only
    rw [pushEdges_ok _ _ _ _ _ hin, List.map_append]
    have := act_act lp [] [] (n.incoming.map (fun e => (row, cols.getD e 0, k)))
      (n.outgoing.map (fun e => (row, cols.getD e 0, k)))
    rw [List.nil_append] at this
    rw [← this]
    cases lp.act [] (n.incoming.map (fun e => (row, cols.getD e 0, k))) with
    | none => rfl
    | some lp1 => exact pushEdges_ok _ _ _ _ _ hout

/-- Coefficients pushed for the nodes of a set. -/
def nodesPush (net : Network) (cols : List Nat) (row : Nat) (k : ℚ) (is : List Nat) : List (Nat × Nat × ℚ) :=
  is.flatMap (fun i => ((net.nodes[i]?).map edgesOf |>.getD []).map (fun e => (row, cols.getD e 0, k)))

/-- Every edge of a node has a column in the finished map. -/
def HasCols' (cols : List Nat) (net : Network) : Prop :=
  ∀ n ∈ net.nodes, ∀ e, e ∈ n.incoming ∨ e ∈ n.outgoing → e < cols.length

theorem pushNodes_ok (net : Network) (cols : List Nat) (hc : HasCols' cols net) (row : Nat) (k : ℚ) (is : List Nat) :
    ∀ lp : Lp, (∀ i ∈ is, i < net.nodes.length) → pushNodes net cols row k is lp = lp.act [] (nodesPush net cols row k is) := by
  induction is with
  | nil => intro lp _; simp [pushNodes, nodesPush, Lp.act, Lp.applyBounds]
  | cons i is ih =>
    intro lp h
    rw [List.forall_mem_cons] at h
    have hi := List.getElem?_eq_getElem h.1
    simp only [pushNodes, hi]
    rw [pushNode_ok cols row _ k lp (hc _ (List.getElem_mem h.1))]
    have := act_act lp [] [] ((edgesOf net.nodes[i]).map (fun e => (row, cols.getD e 0, k))) (nodesPush net cols row k is)
    have hp : nodesPush net cols row k (i :: is)
        = (edgesOf net.nodes[i]).map (fun e => (row, cols.getD e 0, k)) ++ nodesPush net cols row k is := by
      simp [nodesPush, hi]
    rw [hp]
    rw [List.nil_append] at this
    rw [← this]
    cases lp.act [] ((edgesOf net.nodes[i]).map (fun e => (row, cols.getD e 0, k))) with
    | none => rfl
    | some lp1 => exact ih lp1 h.2

/-- Coefficients pushed for a pair. -/
def pairPush (net : Network) (cols : List Nat) (row : Nat) (p : Pair) : List (Nat × Nat × ℚ) :=
  nodesPush net cols row (p.f0.getD 0) p.nodes0 ++ nodesPush net cols row (p.f1.getD 0) p.nodes1

/-- Members of a pair exist. -/
def Pair.InRange (net : Network) (p : Pair) : Prop :=
  (∀ i ∈ p.nodes0, i < net.nodes.length) ∧ (∀ i ∈ p.nodes1, i < net.nodes.length)

theorem updatePair_ok (net : Network) (cols : List Nat) (hc : HasCols' cols net) (row : Nat) (p : Pair) (hp : p.InRange net)
    (lp lp' : Lp) : updatePair net cols row p lp = .ok lp' ↔ p.f0.isSome ∧ p.f1.isSome ∧
      lp.act [(row, p.rhs, p.rhs)] (pairPush net cols row p) = some lp' := by
  unfold updatePair pairPush
  cases h0 : p.f0 with
  | none => simp
  | some k0 =>
    cases h1 : p.f1 with
    | none => simp
    | some k1 =>
      simp only [Option.isSome_some, true_and, Option.getD_some]
      rw [pushNodes_ok net cols hc row k0 _ lp hp.1]
      have e1 := act_act lp [] [] (nodesPush net cols row k0 p.nodes0) (nodesPush net cols row k1 p.nodes1)
      rw [List.nil_append] at e1
      have e2 := act_act lp [] [(row, p.rhs, p.rhs)] (nodesPush net cols row k0 p.nodes0 ++ nodesPush net cols row k1 p.nodes1) []
      rw [List.append_nil, List.nil_append] at e2
      rw [← e2, ← e1]
      cases ha : lp.act [] (nodesPush net cols row k0 p.nodes0) with
      | none => simp
      | some lp1 =>
        simp only [Option.bind_some]
        rw [pushNodes_ok net cols hc row k1 _ lp1 hp.2]
        cases hb : lp1.act [] (nodesPush net cols row k1 p.nodes1) with
        | none => simp
        | some lp2 =>
          simp only [Option.bind_some, act_bounds]
          cases lp2.applyRowBounds row p.rhs p.rhs <;> simp

/-- Bounds set by pairs with variable rows. -/
def pairBounds (l : List (Pair × Option Nat)) : List (Nat × ℚ × ℚ) := l.filterMap (fun t => t.2.map (fun i => (i, t.1.rhs, t.1.rhs)))

/-- Coefficients pushed by pairs with variable rows. -/
def pairPushes (net : Network) (cols : List Nat) (l : List (Pair × Option Nat)) : List (Nat × Nat × ℚ) :=
  l.flatMap (fun t => match t.2 with | none => [] | some i => pairPush net cols i t.1)

theorem updatePairs_ok (net : Network) (cols : List Nat) (hc : HasCols' cols net) (l : List (Pair × Option Nat))
    (hl : ∀ t ∈ l, t.1.InRange net) : ∀ (lp lp' : Lp), updatePairs net cols l lp = .ok lp' ↔
      (∀ t ∈ l, t.2.isSome → t.1.f0.isSome ∧ t.1.f1.isSome) ∧ lp.act (pairBounds l) (pairPushes net cols l) = some lp' := by
  induction l with
  | nil => intro lp lp'; simp [updatePairs, pairBounds, pairPushes, act_nil]
  | cons t l ih =>
    obtain ⟨p, o⟩ := t
    intro lp lp'
    rw [List.forall_mem_cons] at hl
    cases o with
    | none =>
      simp only [updatePairs]
      rw [ih hl.2 lp lp']
      simp [pairBounds, pairPushes]
    | some i =>
      simp only [updatePairs, List.forall_mem_cons, Option.isSome_some, true_implies]
      have e1 := act_act lp [(i, p.rhs, p.rhs)] (pairBounds l) (pairPush net cols i p) (pairPushes net cols l)
      have e2 : lp.act (pairBounds ((p, some i) :: l)) (pairPushes net cols ((p, some i) :: l))
          = (lp.act [(i, p.rhs, p.rhs)] (pairPush net cols i p)).bind (·.act (pairBounds l) (pairPushes net cols l)) := by
        rw [e1]; simp [pairBounds, pairPushes]
      rw [e2]
      have hu := updatePair_ok net cols hc i p hl.1 lp
      cases hr : updatePair net cols i p lp with
      | error e =>
        simp only [reduceCtorEq, false_iff, not_and]
        rintro ⟨⟨h0, h1⟩, _⟩ h
        cases ha : lp.act [(i, p.rhs, p.rhs)] (pairPush net cols i p) with
        | none => rw [ha] at h; simp at h
        | some lp1 =>
          have := (hu lp1).2 ⟨h0, h1, ha⟩
          rw [hr] at this; cases this
      | ok lp1 =>
        obtain ⟨h0, h1, ha⟩ := (hu lp1).1 hr
        simp only [ih hl.2 lp1 lp', ha, Option.bind_some, h0, h1, and_self, true_and]

/-- The pairs of the aggregated node with an index in a step. -/
def pairsOf (M : Model) (σ : Nat → Option ℚ) (k : Nat) : Option (List Pair) :=
  match M.aggs[k]? with
  | none => none
  | some a =>
    match a.factors with
    | none => none
    | some f =>
      match f.pairs a.nodes σ with
      | .ok ps => some ps
      | .error _ => none

/-- Pairs of a step with the ids of their rows. -/
def withRows (G : List ((Nat × List (Option Nat)) × List Pair)) : List (Pair × Option Nat) := G.flatMap (fun q => q.2.zip q.1.2)

theorem factorLoop_ok (M : Model) (σ : Nat → Option ℚ) (cols : List Nat) (hc : HasCols' cols M.net)
    (rs : List (Nat × List (Option Nat))) (hin : ∀ r ∈ rs, ∀ ps, pairsOf M σ r.1 = some ps → ∀ p ∈ ps, p.InRange M.net) :
    ∀ (lp lp' : Lp), factorLoop M σ cols rs lp = .ok lp' ↔
    ∃ G : List (List Pair), rs.map (fun r => pairsOf M σ r.1) = G.map some ∧ (∀ q ∈ rs.zip G, q.1.2.length = q.2.length) ∧
      (∀ t ∈ withRows (rs.zip G), t.2.isSome → t.1.f0.isSome ∧ t.1.f1.isSome) ∧
      lp.act (pairBounds (withRows (rs.zip G))) (pairPushes M.net cols (withRows (rs.zip G))) = some lp' := by
  induction rs with
  | nil =>
    intro lp lp'
    simp only [factorLoop, Except.ok.injEq, List.map_nil]
    constructor
    · rintro rfl; exact ⟨[], rfl, by simp, by simp [withRows], act_nil _⟩
    · rintro ⟨G, _, _, _, h⟩
      have : lp.act [] [] = some lp' := by simpa [withRows, pairBounds, pairPushes] using h
      rw [act_nil] at this
      simpa using this
  | cons r rs ih =>
    obtain ⟨k, rows⟩ := r
    intro lp lp'
    rw [List.forall_mem_cons] at hin
    have hno : pairsOf M σ k = none → ¬ ∃ G : List (List Pair),
        ((k, rows) :: rs).map (fun r => pairsOf M σ r.1) = G.map some ∧
        (∀ q ∈ ((k, rows) :: rs).zip G, q.1.2.length = q.2.length) ∧
        (∀ t ∈ withRows (((k, rows) :: rs).zip G), t.2.isSome → t.1.f0.isSome ∧ t.1.f1.isSome) ∧
        lp.act (pairBounds (withRows (((k, rows) :: rs).zip G))) (pairPushes M.net cols (withRows (((k, rows) :: rs).zip G)))
          = some lp' := by
      rintro h ⟨G, h1, _⟩
      cases G with
      | nil => simp at h1
      | cons g G => simp [h] at h1
    simp only [factorLoop]
    cases ha : M.aggs[k]? with
    | none =>
      simp only [reduceCtorEq, false_iff]
      exact hno (by simp [pairsOf, ha])
    | some a =>
      cases hF : a.factors with
      | none =>
        simp only [hF, reduceCtorEq, false_iff]
        exact hno (by simp [pairsOf, ha, hF])
      | some F =>
        cases hp : F.pairs a.nodes σ with
        | error e =>
          simp only [hF, hp, reduceCtorEq, false_iff]
          exact hno (by simp [pairsOf, ha, hF, hp])
        | ok ps =>
          have hpo : pairsOf M σ k = some ps := by simp [pairsOf, ha, hF, hp]
          simp only [hF, hp]
          have hcons : ∀ G, withRows (((k, rows) :: rs).zip (ps :: G)) = ps.zip rows ++ withRows (rs.zip G) := by
            intro G; simp [withRows]
          by_cases hlen : rows.length = ps.length
          · rw [if_pos hlen]
            have hu := updatePairs_ok M.net cols hc (ps.zip rows) (fun t ht => hin.1 ps hpo t.1 (List.of_mem_zip ht).1) lp
            have hact : ∀ G, lp.act (pairBounds (ps.zip rows ++ withRows (rs.zip G))) (pairPushes M.net cols (ps.zip rows ++ withRows (rs.zip G)))
                = (lp.act (pairBounds (ps.zip rows)) (pairPushes M.net cols (ps.zip rows))).bind
                  (·.act (pairBounds (withRows (rs.zip G))) (pairPushes M.net cols (withRows (rs.zip G)))) := by
              intro G
              rw [act_act]
              simp [pairBounds, pairPushes, List.filterMap_append]
            cases hr : updatePairs M.net cols (ps.zip rows) lp with
            | error e =>
              simp only [reduceCtorEq, false_iff]
              rintro ⟨G, h1, h2, h3, h4⟩
              cases G with
              | nil => simp at h1
              | cons g G =>
                simp only [List.map_cons, List.cons.injEq, hpo, Option.some.injEq] at h1
                obtain ⟨rfl, h1⟩ := h1
                rw [hcons] at h3 h4
                rw [hact] at h4
                cases h5 : lp.act (pairBounds (ps.zip rows)) (pairPushes M.net cols (ps.zip rows)) with
                | none => rw [h5] at h4; simp at h4
                | some lp1 =>
                  have := (hu lp1).2 ⟨fun t ht => h3 t (List.mem_append.2 (Or.inl ht)), h5⟩
                  rw [hr] at this; cases this
            | ok lp1 =>
              obtain ⟨g1, g2⟩ := (hu lp1).1 hr
              simp only [ih hin.2 lp1 lp']
              constructor
              · rintro ⟨G, h1, h2, h3, h4⟩
                refine ⟨ps :: G, by simp [hpo, h1], ?_, ?_, ?_⟩
                · rw [List.zip_cons_cons, List.forall_mem_cons]; exact ⟨hlen, h2⟩
                · rw [hcons]
                  intro t ht
                  rcases List.mem_append.1 ht with ht | ht
                  · exact g1 t ht
                  · exact h3 t ht
                · rw [hcons, hact, g2, Option.bind_some]; exact h4
              · rintro ⟨G, h1, h2, h3, h4⟩
                cases G with
                | nil => simp at h1
                | cons g G =>
                  simp only [List.map_cons, List.cons.injEq, hpo, Option.some.injEq] at h1
                  obtain ⟨rfl, h1⟩ := h1
                  rw [hcons] at h3 h4
                  rw [hact, g2, Option.bind_some] at h4
                  rw [List.zip_cons_cons, List.forall_mem_cons] at h2
                  exact ⟨G, h1, h2.2, fun t ht => h3 t (List.mem_append.2 (Or.inr ht)), h4⟩
          · rw [if_neg hlen]
            simp only [reduceCtorEq, false_iff]
            rintro ⟨G, h1, h2, _⟩
            cases G with
            | nil => simp at h1
            | cons g G =>
              simp only [List.map_cons, List.cons.injEq, hpo, Option.some.injEq] at h1
              obtain ⟨rfl, h1⟩ := h1
              rw [List.zip_cons_cons, List.forall_mem_cons] at h2
              exact hlen h2.1

end Verif.Solver
