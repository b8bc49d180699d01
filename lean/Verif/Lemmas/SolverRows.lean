import Verif.Lemmas.SolverStep

/-! # Rows and objective of the program after a step -/

namespace Verif.Solver

open Verif.State (NodeKind Edge)
open Verif.Topology (Network TNode)

/-! ## Objective -/

theorem objective_modify (x : Nat → ℚ) (v : ℚ) (l : List ℚ) : ∀ (c k : Nat), c < l.length →
    (((l.modify c (· + v)).zipIdx k).map fun p => p.1 * x p.2).sum
      = ((l.zipIdx k).map fun p => p.1 * x p.2).sum + v * x (k + c) := by
  induction l with
  | nil => intro c k h; simp at h
  | cons a l ih =>
    intro c k h
    cases c with
    | zero => simp only [List.modify_zero_cons, List.zipIdx_cons, List.map_cons, List.sum_cons, Nat.add_zero]; ring
    | succ c =>
      simp only [List.modify_succ_cons, List.zipIdx_cons, List.map_cons, List.sum_cons]
      rw [ih c (k + 1) (by simpa using h), show k + 1 + c = k + (c + 1) by omega]
      ring

theorem objectiveLoop_ok (M : Model) (σ : Nat → Option ℚ) (cols : List Nat) (es : List Edge) : ∀ (lp : Lp),
    (∀ e ∈ es, e.index < cols.length ∧ cols.getD e.index 0 < lp.colObj.length) →
    (∀ lp', objectiveLoop M σ cols es lp = .ok lp' → ∃ (cs obj : List ℚ), es.map (edgeCost M σ) = cs.map some ∧
      lp' = { lp with colObj := obj } ∧ obj.length = lp.colObj.length ∧
      ∀ x, lp'.objective x = lp.objective x + ((es.zip cs).map (fun p => p.2 * x (cols.getD p.1.index 0))).sum) ∧
    ((∀ e ∈ es, (edgeCost M σ e).isSome) → ∃ lp', objectiveLoop M σ cols es lp = .ok lp') := by
  induction es with
  | nil =>
    intro lp _
    refine ⟨fun lp' h => ?_, fun _ => ⟨lp, rfl⟩⟩
    simp only [objectiveLoop, Except.ok.injEq] at h
    subst h
    exact ⟨[], lp.colObj, rfl, rfl, rfl, fun x => by simp⟩
  | cons e es ih =>
    intro lp h
    rw [List.forall_mem_cons] at h
    have hc : cols[e.index]? = some (cols.getD e.index 0) := by
      rw [List.getD_eq_getElem?_getD, List.getElem?_eq_getElem h.1.1]; rfl
    have hadd : ∀ c, lp.addObj (cols.getD e.index 0) c
        = some { lp with colObj := lp.colObj.modify (cols.getD e.index 0) (· + c) } := by
      intro c; unfold Lp.addObj; rw [if_pos h.1.2]
    refine ⟨fun lp' hok => ?_, fun hall => ?_⟩
    · simp only [objectiveLoop] at hok
      cases hcost : edgeCost M σ e with
      | none => simp [hcost] at hok
      | some c =>
        simp only [hcost, hc, hadd] at hok
        obtain ⟨cs, obj, g1, g2, g3, g4⟩ := (ih _ (by simpa using h.2)).1 lp' hok
        refine ⟨c :: cs, obj, by simp [hcost, g1], g2, by simpa using g3, fun x => ?_⟩
        rw [g4 x]
        have := objective_modify x c lp.colObj (cols.getD e.index 0) 0 h.1.2
        simp only [Lp.objective, List.zip_cons_cons, List.map_cons, List.sum_cons]
        rw [this, Nat.zero_add]
        ring
    · rw [List.forall_mem_cons] at hall
      obtain ⟨c, hcost⟩ := Option.isSome_iff_exists.1 hall.1
      simp only [objectiveLoop, hcost, hc, hadd]
      exact (ih _ (by simpa using h.2)).2 hall.2

/-! ## Pushed coefficients -/

theorem nodesPush_eq (net : Network) (cols : List Nat) (row : Nat) (k : ℚ) (is : List Nat) :
    nodesPush net cols row k is = (edgesOfSet net is).map (fun e => (row, cols.getD e 0, k)) := by
  unfold nodesPush edgesOfSet
  rw [List.map_flatMap]

theorem pairPush_row (net : Network) (cols : List Nat) (row : Nat) (p : Pair) : ∀ t ∈ pairPush net cols row p, t.1 = row := by
  intro t ht
  unfold pairPush at ht
  rw [nodesPush_eq, nodesPush_eq] at ht
  rcases List.mem_append.1 ht with ht | ht
  · obtain ⟨e, _, rfl⟩ := List.mem_map.1 ht; rfl
  · obtain ⟨e, _, rfl⟩ := List.mem_map.1 ht; rfl

theorem pairPushes_filter (net : Network) (cols : List Nat) (L : List (Pair × Option Nat)) (hnd : (L.filterMap (·.2)).Nodup)
    (i : Nat) (p : Pair) (h : (p, some i) ∈ L) :
    (pairPushes net cols L).filter (fun t => t.1 = i) = pairPush net cols i p := by
  have hself : ∀ q : Pair, (pairPush net cols i q).filter (fun t => t.1 = i) = pairPush net cols i q := by
    intro q
    rw [List.filter_eq_self]
    intro t ht
    simp [pairPush_row net cols i q t ht]
  have hother : ∀ (j : Nat) (q : Pair), j ≠ i → (pairPush net cols j q).filter (fun t => t.1 = i) = [] := by
    intro j q hj
    rw [List.filter_eq_nil_iff]
    intro t ht
    simp [pairPush_row net cols j q t ht, hj]
  have hnone : ∀ L : List (Pair × Option Nat), i ∉ L.filterMap (·.2) → (pairPushes net cols L).filter (fun t => t.1 = i) = [] := by
    intro L
    induction L with
    | nil => intro _; rfl
    | cons t L ih =>
      obtain ⟨q, o⟩ := t
      intro hi
      unfold pairPushes at ih ⊢
      cases o with
      | none =>
        simp only [List.filterMap_cons_none] at hi
        simpa using ih hi
      | some j =>
        simp only [List.filterMap_cons_some (f := fun t : Pair × Option Nat => t.2) (a := (q, some j)) (b := j) rfl, List.mem_cons, not_or] at hi
        rw [List.flatMap_cons, List.filter_append, ih hi.2, hother j q (fun h => hi.1 h.symm)]
        rfl
  have hcons : ∀ (q : Pair) (o : Option Nat) (L : List (Pair × Option Nat)), pairPushes net cols ((q, o) :: L)
      = (match o with | none => [] | some i => pairPush net cols i q) ++ pairPushes net cols L := by
    intro q o L
    cases o <;> simp [pairPushes]
  induction L with
  | nil => simp at h
  | cons t L ih =>
    obtain ⟨q, o⟩ := t
    cases o with
    | none =>
      rw [List.mem_cons] at h
      rcases h with h | h
      · cases h
      · rw [hcons]; exact ih (by simpa using hnd) h
    | some j =>
      rw [List.filterMap_cons_some (f := fun t : Pair × Option Nat => t.2) (a := (q, some j)) (b := j) rfl, List.nodup_cons] at hnd
      rw [List.mem_cons] at h
      rw [hcons]
      simp only
      rw [List.filter_append]
      rcases h with h | h
      · simp only [Prod.mk.injEq, Option.some.injEq] at h
        obtain ⟨rfl, rfl⟩ := h
        rw [hself, hnone L hnd.1, List.append_nil]
      · have hi : i ∈ L.filterMap (·.2) := List.mem_filterMap.2 ⟨_, h, rfl⟩
        rw [hother j q (fun e => hnd.1 (e ▸ hi)), List.nil_append]
        exact ih hnd.2 h

theorem sum_edgesOfSet (net : Network) (f : Nat → ℚ) (is : List Nat)
    (hst : ∀ i ∈ is, ∀ n, net.nodes[i]? = some n → n.kind = .storage → n.outgoing = []) :
    ((edgesOfSet net is).map f).sum = setFlow (flowAt net f) is := by
  unfold edgesOfSet setFlow
  induction is with
  | nil => rfl
  | cons i is ih =>
    rw [List.forall_mem_cons] at hst
    rw [List.flatMap_cons, List.map_append, List.sum_append, ih hst.2, List.map_cons, List.sum_cons]
    congr 1
    unfold flowAt
    cases hn : net.nodes[i]? with
    | none => simp
    | some n =>
      simp only [Option.map_some, Option.getD_some]
      unfold edgesOf nodeFlow
      cases hk : n.kind with
      | link => rfl
      | input => rfl
      | output => rfl
      | storage => simp [hst.1 n hn hk]

theorem value_pairPush (net : Network) (cols : List Nat) (row : Nat) (p : Pair) (x : Nat → ℚ)
    (hst : ∀ i ∈ p.nodes0 ++ p.nodes1, ∀ n, net.nodes[i]? = some n → n.kind = .storage → n.outgoing = []) :
    value ((pairPush net cols row p).map (·.2)) x
      = p.f0.getD 0 * setFlow (flowAt net (fun e => x (cols.getD e 0))) p.nodes0
        + p.f1.getD 0 * setFlow (flowAt net (fun e => x (cols.getD e 0))) p.nodes1 := by
  have key : ∀ (k : ℚ) (is : List Nat), (∀ i ∈ is, ∀ n, net.nodes[i]? = some n → n.kind = .storage → n.outgoing = []) →
      value ((nodesPush net cols row k is).map (·.2)) x = k * setFlow (flowAt net (fun e => x (cols.getD e 0))) is := by
    intro k is h
    rw [nodesPush_eq, ← sum_edgesOfSet net _ is h]
    unfold value
    rw [List.map_map, List.map_map]
    induction edgesOfSet net is with
    | nil => simp
    | cons e es ih =>
      simp only [List.map_cons, List.sum_cons, ih, mul_add]
      rfl
  unfold pairPush
  rw [List.map_append]
  have hv : ∀ a b : List (Nat × ℚ), value (a ++ b) x = value a x + value b x := by
    intro a b; simp [value]
  rw [hv, key _ _ (fun i hi => hst i (List.mem_append.2 (Or.inl hi))), key _ _ (fun i hi => hst i (List.mem_append.2 (Or.inr hi)))]

/-! ## Pairs of a step and their rows -/

theorem forall₂_zip_mem {α β : Type} {R : α → β → Prop} {as : List α} {bs : List β} (h : List.Forall₂ R as bs) :
    List.Forall₂ (fun a b => R a b ∧ (a, b) ∈ as.zip bs) as bs := by
  induction h with
  | nil => exact .nil
  | cons h _ ih =>
    refine .cons ⟨h, by simp⟩ ?_
    exact ih.imp (fun a b hab => ⟨hab.1, by rw [List.zip_cons_cons]; exact List.mem_cons_of_mem _ hab.2⟩)

/-! ## The update as one action -/

theorem act_consts {lp lp' : Lp} {bs : List (Nat × ℚ × ℚ)} {P : List (Nat × Nat × ℚ)} (h : lp.act bs P = some lp') :
    lp'.f64Max = lp.f64Max ∧ lp'.f64NegMax = lp.f64NegMax := by
  unfold Lp.act at h
  cases hb : lp.applyBounds bs with
  | none => simp [hb] at h
  | some l =>
    simp only [hb, Option.map_some, Option.some.injEq] at h
    obtain ⟨⟨lo, hi, e⟩, _⟩ := applyBounds_spec bs lp l hb
    subst h
    rw [e]
    exact ⟨rfl, rfl⟩

/-- The bounds and coefficients of a step. -/
structure StepData (M : Model) (st : StepState) (big negBig : ℚ) (s : Built) (N : List (Nat × Row × TNode))
    (bsN : List (Nat × ℚ × ℚ)) (G : List (List Pair)) (bsA bsV : List (Nat × ℚ × ℚ)) : Prop where
  nodes : bsN.map some = N.map (fun p => (nodeBounds p.2.2 (M.data p.2.2.index) st).map (fun b => (p.1, b.1, b.2)))
  pairs : s.factorRows.map (fun r => pairsOf M st.metric r.1) = G.map some
  lengths : ∀ q ∈ s.factorRows.zip G, q.1.2.length = q.2.length
  finite : ∀ t ∈ withRows (s.factorRows.zip G), t.2.isSome → t.1.f0.isSome ∧ t.1.f1.isSome
  aggs : bsA.map some = (s.aggRows.zip M.aggs).map (fun p => (aggBounds st p.2).map (fun b => (p.1, b.1, b.2)))
  vs : bsV.map some = (s.vsRows.zip (List.range M.vs.length)).map
    (fun p => (vsRowBounds st negBig big p.2).map (fun b => (p.1, b.1, b.2)))

theorem step_parts (M : Model) (st : StepState) (s s' : Built) (N : List (Nat × Row × TNode))
    (hN : s.nodeRows = N.map (fun p => ⟨p.1, p.2.2.index, .continuous⟩))
    (hn : ∀ p ∈ N, M.net.nodes[p.2.2.index]? = some p.2.2) (hc : HasCols' s.cols M.net)
    (hin : ∀ r ∈ s.factorRows, ∀ ps, pairsOf M st.metric r.1 = some ps → ∀ p ∈ ps, p.InRange M.net)
    (hobj : ∀ lp', objectiveLoop M st.metric s.cols M.net.edges s.lp.zeroObj = .ok lp' →
      lp'.f64Max = s.lp.f64Max ∧ lp'.f64NegMax = s.lp.f64NegMax) :
    step M s st = .ok s' ↔ ∃ lpO bsN G bsA bsV lp1 lp2,
      objectiveLoop M st.metric s.cols M.net.edges s.lp.zeroObj = .ok lpO ∧
      StepData M st s.lp.f64Max s.lp.f64NegMax s N bsN G bsA bsV ∧
      lpO.resetRowBounds.resetCoefficients.act (bsN ++ pairBounds (withRows (s.factorRows.zip G)) ++ bsA ++ bsV)
        (pairPushes M.net s.cols (withRows (s.factorRows.zip G))) = some lp1 ∧
      lp1.applyUpdatedCoefficients = some lp2 ∧ s' = { s with lp := lp2 } := by
  constructor
  · intro h
    unfold step update at h
    cases h1 : objectiveLoop M st.metric s.cols M.net.edges s.lp.zeroObj with
    | error e => simp [h1] at h
    | ok lpO =>
      simp only [h1] at h
      rw [hN] at h
      cases h2 : nodeBoundsLoop M st (N.map (fun p => ⟨p.1, p.2.2.index, .continuous⟩)) lpO.resetRowBounds.resetCoefficients with
      | error e => simp [h2] at h
      | ok lpN =>
        simp only [h2] at h
        obtain ⟨bsN, n1, n2⟩ := (nodeBoundsLoop_ok M st N hn _ _).1 h2
        cases h3 : factorLoop M st.metric s.cols s.factorRows lpN with
        | error e => simp [h3] at h
        | ok lpF =>
          simp only [h3] at h
          obtain ⟨G, g1, g2, g3, g4⟩ := (factorLoop_ok M st.metric s.cols hc s.factorRows hin _ _).1 h3
          cases h4 : aggLoop st (s.aggRows.zip M.aggs) lpF with
          | error e => simp [h4] at h
          | ok lpA =>
            simp only [h4] at h
            obtain ⟨bsA, a1, a2⟩ := (aggLoop_ok st _ _ _).1 h4
            cases h5 : vsLoop st (s.vsRows.zip (List.range M.vs.length)) lpA with
            | error e => simp [h5] at h
            | ok lpV =>
              simp only [h5] at h
              obtain ⟨bsV, v1, v2⟩ := (vsLoop_ok st _ _ _).1 h5
              cases h6 : lpV.applyUpdatedCoefficients with
              | none => simp [h6] at h
              | some lp2 =>
                simp only [h6, Except.ok.injEq] at h
                have k1 := act_consts n2
                have k2 := act_consts g4
                have k3 := act_consts a2
                have k0 := hobj lpO h1
                have e1 : lpA.f64NegMax = s.lp.f64NegMax := by rw [k3.2, k2.2, k1.2, ← k0.2]; rfl
                have e2 : lpA.f64Max = s.lp.f64Max := by rw [k3.1, k2.1, k1.1, ← k0.1]; rfl
                rw [e1, e2] at v1
                refine ⟨lpO, bsN, G, bsA, bsV, lpV, lp2, rfl, ⟨n1, g1, g2, g3, a1, v1⟩, ?_, h6, by rw [hN]; exact h.symm⟩
                have c1 := act_act lpO.resetRowBounds.resetCoefficients bsN (pairBounds (withRows (s.factorRows.zip G))) []
                  (pairPushes M.net s.cols (withRows (s.factorRows.zip G)))
                rw [n2, Option.bind_some, g4] at c1
                have c2 := act_act lpO.resetRowBounds.resetCoefficients (bsN ++ pairBounds (withRows (s.factorRows.zip G))) bsA
                  ([] ++ pairPushes M.net s.cols (withRows (s.factorRows.zip G))) []
                rw [← c1, Option.bind_some, a2] at c2
                have c3 := act_act lpO.resetRowBounds.resetCoefficients (bsN ++ pairBounds (withRows (s.factorRows.zip G)) ++ bsA) bsV
                  ([] ++ pairPushes M.net s.cols (withRows (s.factorRows.zip G)) ++ []) []
                rw [← c2, Option.bind_some, v2] at c3
                simpa using c3.symm
  · rintro ⟨lpO, bsN, G, bsA, bsV, lp1, lp2, h1, hd, h2, h3, rfl⟩
    have c3 := act_act lpO.resetRowBounds.resetCoefficients (bsN ++ pairBounds (withRows (s.factorRows.zip G)) ++ bsA) bsV
      (pairPushes M.net s.cols (withRows (s.factorRows.zip G))) []
    rw [List.append_nil, h2] at c3
    cases hA : lpO.resetRowBounds.resetCoefficients.act (bsN ++ pairBounds (withRows (s.factorRows.zip G)) ++ bsA)
        (pairPushes M.net s.cols (withRows (s.factorRows.zip G))) with
    | none => rw [hA] at c3; simp at c3
    | some lpA =>
      rw [hA, Option.bind_some] at c3
      have c2 := act_act lpO.resetRowBounds.resetCoefficients (bsN ++ pairBounds (withRows (s.factorRows.zip G))) bsA
        (pairPushes M.net s.cols (withRows (s.factorRows.zip G))) []
      rw [List.append_nil, hA] at c2
      cases hF : lpO.resetRowBounds.resetCoefficients.act (bsN ++ pairBounds (withRows (s.factorRows.zip G)))
          (pairPushes M.net s.cols (withRows (s.factorRows.zip G))) with
      | none => rw [hF] at c2; simp at c2
      | some lpF =>
        rw [hF, Option.bind_some] at c2
        have c1 := act_act lpO.resetRowBounds.resetCoefficients bsN (pairBounds (withRows (s.factorRows.zip G))) []
          (pairPushes M.net s.cols (withRows (s.factorRows.zip G)))
        rw [List.nil_append, hF] at c1
        cases hNn : lpO.resetRowBounds.resetCoefficients.act bsN [] with
        | none => rw [hNn] at c1; simp at c1
        | some lpN =>
          rw [hNn, Option.bind_some] at c1
          have k1 := act_consts hNn
          have k2 := act_consts c1
          have k3 := act_consts c2
          have k0 := hobj lpO h1
          have e1 : lpA.f64NegMax = s.lp.f64NegMax := by rw [k3.2, k2.2, k1.2, ← k0.2]; rfl
          have e2 : lpA.f64Max = s.lp.f64Max := by rw [k3.1, k2.1, k1.1, ← k0.1]; rfl
          have q1 := (nodeBoundsLoop_ok M st N hn _ _).2 ⟨bsN, hd.nodes, hNn⟩
          have q2 := (factorLoop_ok M st.metric s.cols hc s.factorRows hin _ _).2 ⟨G, hd.pairs, hd.lengths, hd.finite, c1⟩
          have q3 := (aggLoop_ok st _ _ _).2 ⟨bsA, hd.aggs, c2⟩
          have q4 := (vsLoop_ok st _ _ _).2 ⟨bsV, by rw [e1, e2]; exact hd.vs, c3⟩
          unfold step update
          simp only [h1]
          rw [hN]
          simp only [q1, q2, q3, q4, h3]

end Verif.Solver
