import Verif.Lemmas.SolverAlloc

/-! # The program after a step, in terms of flows and costs -/

namespace Verif.Solver

open Verif.State (NodeKind Edge)
open Verif.Topology (Network TNode)

section

variable {M : Model} {big negBig : ℚ} {s : Built} {m : ColMap} {b : LpBuilder} {N : List (Nat × Row × TNode)}
  {A : List (Nat × Row × AggNode)} {C : List (Nat × List FRow)} {V : List (Nat × Row × VStore)}

theorem Created.withLp (hc : Created M big negBig s m b N A C V) (lp : Lp) :
    Created M big negBig { s with lp := lp } m b N A C V :=
  ⟨hc.colMap, hc.cols, hc.nodeRows, hc.aggRows, hc.factorRows, hc.vsRows, hc.f64Max, hc.f64NegMax, hc.colLower, hc.colUpper,
    hc.colObj, hc.colType, hc.ids, hc.cover, hc.nodeIs, hc.nodeList, hc.aggIs, hc.aggList, hc.vsIs, hc.vsList, hc.facIs, hc.facOf,
    hc.facAll, hc.facPairs, hc.fixed⟩

theorem LpInv.withObj {D : Nat → Prop} {lp : Lp} (h : LpInv b D lp) (obj : List ℚ) (ho : obj.length = lp.colObj.length) :
    LpInv b D { lp with colObj := obj } := by
  obtain ⟨ls, h1, h2, h3⟩ := h.matrix
  exact ⟨h.f64Max, h.f64NegMax, h.colLower, h.colUpper, h.colType, ho.trans h.colObj, h.mask, h.lenMask, h.lenLower, h.lenUpper,
    h.fixedBounds, ⟨ls, ⟨h1.starts, h1.columns, h1.elements⟩, h2, h3⟩⟩

theorem Created.colBound (hc : Created M big negBig s m b N A C V) (hv : M.Valid) (e : Nat) (he : e < M.net.edges.length) :
    colOf m e < m.colToEdges.length := by
  obtain ⟨_, hinv, hall, _, _⟩ := hc.inv hv
  obtain ⟨c, h⟩ := hall e he
  obtain ⟨es, h1, _⟩ := hinv.fwd e c h
  have : colOf m e = c := by simp [colOf, ColMap.col, h]
  rw [this]
  exact (List.getElem?_eq_some_iff.1 h1).1

theorem Created.colSurj (hc : Created M big negBig s m b N A C V) (hv : M.Valid) (c : Nat) (h : c < m.colToEdges.length) :
    ∃ e < M.net.edges.length, colOf m e = c := by
  obtain ⟨_, hinv, _, _, _⟩ := hc.inv hv
  obtain ⟨h1, h2⟩ := hinv.bwd c _ (List.getElem?_eq_getElem h)
  obtain ⟨e, es, he⟩ := List.exists_cons_of_ne_nil h1
  have := h2 e (by rw [he]; simp)
  exact ⟨e, hinv.bound e c this, by simp [colOf, ColMap.col, this]⟩

theorem Created.zipG (hc : Created M big negBig s m b N A C V) (hf : M.FactorsOk) {st : StepState}
    {bsN bsA bsV : List (Nat × ℚ × ℚ)} {G : List (List Pair)} (hd : StepData M st big negBig s N bsN G bsA bsV) :
    (∀ q ∈ C.zip G, ∃ a F, M.aggs[q.1.1]? = some a ∧ a.factors = some F ∧ F.constPairs a.nodes = .ok (q.1.2.map (·.1)) ∧
      F.pairs a.nodes st.metric = .ok q.2 ∧ q.1.2.length = q.2.length ∧ ∀ t ∈ q.1.2.zip q.2, t ∈ current C G) ∧
    (∀ q ∈ C, ∃ ps, (q, ps) ∈ C.zip G) := by
  have hlen : C.length = G.length := by
    have := congrArg List.length hd.pairs
    simpa [hc.factorRows] using this
  refine ⟨?_, ?_⟩
  · intro q hqm
    obtain ⟨a, F, e1, e2, e3⟩ := hc.facOf q.1 (List.of_mem_zip hqm).1
    have hpo : pairsOf M st.metric q.1.1 = some q.2 := by
      have hp := hd.pairs
      rw [hc.factorRows, List.map_map] at hp
      have hz : ∀ (C : List (Nat × List FRow)) (G : List (List Pair)), C.map (fun r => pairsOf M st.metric r.1) = G.map some →
          ∀ q ∈ C.zip G, pairsOf M st.metric q.1.1 = some q.2 := by
        intro C
        induction C with
        | nil => intro G _ q hq; simp at hq
        | cons c C ih =>
          intro G h q hq
          cases G with
          | nil => simp at h
          | cons g G =>
            simp only [List.map_cons, List.cons.injEq] at h
            rw [List.zip_cons_cons, List.mem_cons] at hq
            rcases hq with rfl | hq
            · exact h.1
            · exact ih G h.2 q hq
      exact hz C G hp q hqm
    have hps : F.pairs a.nodes st.metric = .ok q.2 := by
      unfold pairsOf at hpo
      simp only [e1, e2] at hpo
      cases hp : F.pairs a.nodes st.metric with
      | error e => simp [hp] at hpo
      | ok ps => simp only [hp, Option.some.injEq] at hpo; rw [hpo]
    refine ⟨a, F, e1, e2, e3, hps, ?_, ?_⟩
    · have hag := C23_pairs_agree F a.nodes st.metric _ _ e3 hps (hf.rhs a (List.mem_of_getElem? e1) F e2)
      have := hag.length_eq
      simpa using this
    · intro t ht
      exact List.mem_flatMap.2 ⟨q, hqm, ht⟩
  · intro q hq
    obtain ⟨k, hk⟩ := List.mem_iff_getElem?.1 hq
    have hkl : k < G.length := by rw [← hlen]; exact (List.getElem?_eq_some_iff.1 hk).1
    refine ⟨G[k], List.mem_iff_getElem?.2 ⟨k, ?_⟩⟩
    rw [List.getElem?_zip_eq_some]
    exact ⟨hk, List.getElem?_eq_getElem hkl⟩

theorem pairs_inRange (hc : Created M big negBig s m b N A C V) (hv : M.Valid) (hf : M.FactorsOk) (σ : Nat → Option ℚ) :
    ∀ r ∈ s.factorRows, ∀ ps, pairsOf M σ r.1 = some ps → ∀ p ∈ ps, p.InRange M.net := by
  intro r hr ps hps p hp
  rw [hc.factorRows] at hr
  obtain ⟨q, hq, rfl⟩ := List.mem_map.1 hr
  obtain ⟨a, F, e1, e2, e3⟩ := hc.facOf q hq
  have ha := List.mem_of_getElem? e1
  have hpp : F.pairs a.nodes σ = .ok ps := by
    unfold pairsOf at hps
    simp only [e1, e2] at hps
    cases h : F.pairs a.nodes σ with
    | error e => simp [h] at hps
    | ok ps' => simp only [h, Option.some.injEq] at hps; rw [hps]
  have hag := C23_pairs_agree F a.nodes σ _ _ e3 hpp (hf.rhs a ha F e2)
  obtain ⟨k, hk⟩ := List.mem_iff_getElem?.1 hp
  have hkl : k < (q.2.map (·.1)).length := by
    rw [hag.length_eq]; exact (List.getElem?_eq_some_iff.1 hk).1
  rw [List.forall₂_iff_zip] at hag
  have hmem : ((q.2.map (·.1))[k]'hkl, p) ∈ (q.2.map (·.1)).zip ps := List.mem_iff_getElem?.2 ⟨k, by
    rw [List.getElem?_zip_eq_some]; exact ⟨List.getElem?_eq_getElem hkl, hk⟩⟩
  have := hag.2 hmem
  have hn := constPairs_nodes F a.nodes _ e3 _ (List.getElem_mem hkl)
  rw [this.nodes0, this.nodes1] at hn
  exact ⟨hv.aggs a ha _ hn.1, hv.aggs a ha _ hn.2⟩

/-- Feasibility of the rows as in `rows_step`, in terms of the allocation problem. -/
theorem rows_allowed (hc : Created M big negBig s m b N A C V) (hv : M.Valid) (hf : M.FactorsOk)
    {st : StepState} (hdays : 0 < st.days) {bsN bsA bsV : List (Nat × ℚ × ℚ)} {G : List (List Pair)}
    (hd : StepData M st big negBig s N bsN G bsA bsV) (x : Nat → ℚ) :
    (((∀ p ∈ N, (negBig ≤ nodeFlow (via m x) p.2.2 ∧ nodeFlow (via m x) p.2.2 ≤ big) ∧
          ∃ q, nodeBounds p.2.2 (M.data p.2.2.index) st = some q ∧ q.1 ≤ nodeFlow (via m x) p.2.2 ∧ nodeFlow (via m x) p.2.2 ≤ q.2) ∧
        (∀ p ∈ A, (negBig ≤ aggFlow M.net (via m x) p.2.2 ∧ aggFlow M.net (via m x) p.2.2 ≤ big) ∧
          ∃ q, aggBounds st p.2.2 = some q ∧ q.1 ≤ aggFlow M.net (via m x) p.2.2 ∧ aggFlow M.net (via m x) p.2.2 ≤ q.2) ∧
        (∀ t ∈ current C G, t.1.2.2.isSome → (negBig ≤ t.2.rhs ∧ t.2.rhs ≤ big) ∧ pairValue M.net (via m x) t.2 = t.2.rhs) ∧
        (∀ (k : Nat) (p : Nat × Row × VStore), V[k]? = some p →
          (negBig ≤ -vsUse M.net (via m x) p.2.2 ∧ -vsUse M.net (via m x) p.2.2 ≤ big) ∧
          ∃ q, vsRowBounds st negBig big k = some q ∧ q.1 ≤ -vsUse M.net (via m x) p.2.2 ∧ -vsUse M.net (via m x) p.2.2 ≤ q.2) ∧
        (∀ r ∈ b.fixedRows, r.Holds big x)) ∧
      (∀ e < M.net.edges.length, 0 ≤ via m x e ∧ via m x e ≤ big)) ↔
    Allowed M st (via m x) ∧ WithinLimits M big negBig st (via m x) := by
  obtain ⟨hz1, hz2⟩ := hc.zipG hf hd
  obtain ⟨hT1, hT2, hT3⟩ := hc.current_mem hf hd
  rw [hc.fixed big x]
  have hNmem : ∀ n, (∃ p ∈ N, p.2.2 = n) ↔ n ∈ M.net.nodes ∧ constBounds n (M.data n.index) = none := by
    intro n
    have : n ∈ N.map (·.2.2) ↔ n ∈ M.net.nodes.filter (fun n => (constBounds n (M.data n.index)).isNone) := by rw [hc.nodeList]
    rw [List.mem_map, List.mem_filter] at this
    simpa using this
  have hN : ∀ P : TNode → Prop, (∀ p ∈ N, P p.2.2) ↔ ∀ n ∈ M.net.nodes, constBounds n (M.data n.index) = none → P n := by
    intro P
    constructor
    · intro h n hn hcb
      obtain ⟨p, hp, rfl⟩ := (hNmem n).2 ⟨hn, hcb⟩
      exact h p hp
    · intro h p hp
      obtain ⟨h1, h2⟩ := (hNmem p.2.2).1 ⟨p, hp, rfl⟩
      exact h _ h1 h2
  have hA : ∀ P : AggNode → Prop, (∀ p ∈ A, P p.2.2) ↔ ∀ a ∈ M.aggs, P a := by
    intro P
    rw [← hc.aggList]
    constructor
    · intro h a ha
      obtain ⟨p, hp, rfl⟩ := List.mem_map.1 ha
      exact h p hp
    · intro h p hp
      exact h _ (List.mem_map_of_mem hp)
  have hV : ∀ P : Nat → VStore → Prop, (∀ (k : Nat) (p : Nat × Row × VStore), V[k]? = some p → P k p.2.2) ↔
      ∀ (k : Nat) (v : VStore), M.vs[k]? = some v → P k v := by
    intro P
    rw [← hc.vsList]
    constructor
    · intro h k v hk
      rw [List.getElem?_map] at hk
      obtain ⟨p, hp, rfl⟩ := Option.map_eq_some_iff.1 hk
      exact h k p hp
    · intro h k p hk
      exact h k _ (by rw [List.getElem?_map, hk]; rfl)
  rw [hN (fun n => (negBig ≤ nodeFlow (via m x) n ∧ nodeFlow (via m x) n ≤ big) ∧
          ∃ q, nodeBounds n (M.data n.index) st = some q ∧ q.1 ≤ nodeFlow (via m x) n ∧ nodeFlow (via m x) n ≤ q.2),
    hA (fun a => (negBig ≤ aggFlow M.net (via m x) a ∧ aggFlow M.net (via m x) a ≤ big) ∧
          ∃ q, aggBounds st a = some q ∧ q.1 ≤ aggFlow M.net (via m x) a ∧ aggFlow M.net (via m x) a ≤ q.2),
    hV (fun k v => (negBig ≤ -vsUse M.net (via m x) v ∧ -vsUse M.net (via m x) v ≤ big) ∧
          ∃ q, vsRowBounds st negBig big k = some q ∧ q.1 ≤ -vsUse M.net (via m x) v ∧ -vsUse M.net (via m x) v ≤ q.2)]
  -- a pair of the step holds exactly when its row does
  have hfixed : ∀ t ∈ current C G, t.1.2.2 = none → (t.1.2.1.Holds big x ↔ t.2.Holds (flowAt M.net (via m x))) := by
    intro t ht hnone
    obtain ⟨q, hq, htq, hag⟩ := hT3 t ht
    obtain ⟨a, F, e1, ha, e2, e3, e4, e5, e6, e7, e8⟩ := hc.pair hf hq htq
    obtain ⟨_, g2, g3, g4, _, _⟩ := hc.facRow hv hf hq htq
    obtain ⟨s0, s1⟩ := (hc.facIs q hq t.1 htq).2.1 hnone
    obtain ⟨c0, h0⟩ := Option.isSome_iff_exists.1 s0
    obtain ⟨c1, h1⟩ := Option.isSome_iff_exists.1 s1
    cases c0 with
    | none => exact absurd h0 e5
    | some k0 =>
      cases c1 with
      | none => exact absurd h1 e6
      | some k1 =>
        have p0 := hag.f0 _ h0
        have p1 := hag.f1 _ h1
        have pr := hag.rhs s0 s1
        unfold Row.Holds
        rw [g2, g3, g4, h0, h1, hag.nodes0, hag.nodes1, pr]
        unfold Pair.Holds
        simp only [Option.bind_some, id, Option.getD_some, p0, p1, Option.some.injEq]
        constructor
        · rintro ⟨h1, h2⟩
          exact ⟨k0, k1, rfl, rfl, le_antisymm h2 h1⟩
        · rintro ⟨_, _, rfl, rfl, h⟩
          exact ⟨by rw [h], by rw [h]⟩
  have hvary : ∀ t ∈ current C G, t.1.2.2.isSome → (pairValue M.net (via m x) t.2 = t.2.rhs ↔ t.2.Holds (flowAt M.net (via m x))) := by
    intro t ht hs
    have hfin := hd.finite (t.2, t.1.2.2) (by rw [hT2]; exact List.mem_map.2 ⟨t, ht, rfl⟩) hs
    obtain ⟨k0, h0⟩ := Option.isSome_iff_exists.1 hfin.1
    obtain ⟨k1, h1⟩ := Option.isSome_iff_exists.1 hfin.2
    simp only at h0 h1
    unfold pairValue Pair.Holds
    simp [h0, h1]
  -- all pairs of all aggregated nodes
  have hpairs : (∀ a ∈ M.aggs, ∀ F, a.factors = some F →
      ∃ ps, F.pairs a.nodes st.metric = .ok ps ∧ ∀ p ∈ ps, p.Holds (flowAt M.net (via m x))) ↔
      ∀ t ∈ current C G, t.2.Holds (flowAt M.net (via m x)) := by
    constructor
    · intro h t ht
      obtain ⟨q, hq, htq⟩ := List.mem_flatMap.1 ht
      obtain ⟨a, F, e1, e2, _, e4, _, _⟩ := hz1 q hq
      obtain ⟨ps, h1, h2⟩ := h a (List.mem_of_getElem? e1) F e2
      rw [e4] at h1; cases h1
      exact h2 _ (List.of_mem_zip htq).2
    · intro h a ha F hF
      obtain ⟨j, hj⟩ := List.mem_iff_getElem?.1 ha
      obtain ⟨q, hq, rfl⟩ := hc.facAll j a F hj hF
      obtain ⟨ps, hps⟩ := hz2 q hq
      obtain ⟨a', F', e1, e2, _, e4, e5, e6⟩ := hz1 _ hps
      simp only at e1
      rw [hj] at e1; cases e1
      rw [hF] at e2; cases e2
      refine ⟨ps, e4, fun p hp => ?_⟩
      obtain ⟨k, hk⟩ := List.mem_iff_getElem?.1 hp
      have hkl : k < q.2.length := by rw [e5]; exact (List.getElem?_eq_some_iff.1 hk).1
      exact h (q.2[k], p) (e6 _ (List.mem_iff_getElem?.2 ⟨k, by
        rw [List.getElem?_zip_eq_some]; exact ⟨List.getElem?_eq_getElem hkl, hk⟩⟩))
  have hrhs : (∀ a ∈ M.aggs, ∀ F cps ps, a.factors = some F → F.constPairs a.nodes = .ok cps → F.pairs a.nodes st.metric = .ok ps →
      ∀ q ∈ cps.zip ps, (q.1.f0 = none ∨ q.1.f1 = none) → negBig ≤ q.2.rhs ∧ q.2.rhs ≤ big) ↔
      ∀ t ∈ current C G, t.1.2.2.isSome → negBig ≤ t.2.rhs ∧ t.2.rhs ≤ big := by
    constructor
    · intro h t ht hs
      obtain ⟨q, hq, htq⟩ := List.mem_flatMap.1 ht
      obtain ⟨a, F, e1, e2, e3, e4, _, _⟩ := hz1 q hq
      obtain ⟨i, hi⟩ := Option.isSome_iff_exists.1 hs
      refine h a (List.mem_of_getElem? e1) F _ _ e2 e3 e4 (t.1.1, t.2) ?_ ?_
      · rw [List.zip_map_left]; exact List.mem_map.2 ⟨t, htq, rfl⟩
      · exact hc.varying (List.of_mem_zip hq).1 (List.of_mem_zip htq).1 hi
    · intro h a ha F cps ps hF hcp hp c hcz hvar
      obtain ⟨j, hj⟩ := List.mem_iff_getElem?.1 ha
      obtain ⟨q, hq, rfl⟩ := hc.facAll j a F hj hF
      obtain ⟨ps', hps⟩ := hz2 q hq
      obtain ⟨a', F', e1, e2, e3, e4, e5, e6⟩ := hz1 _ hps
      simp only at e1
      rw [hj] at e1; cases e1
      rw [hF] at e2; cases e2
      rw [e4] at hp; cases hp
      rw [e3] at hcp; cases hcp
      rw [List.zip_map_left] at hcz
      obtain ⟨t, ht, rfl⟩ := List.mem_map.1 hcz
      refine h t (e6 t ht) ?_
      have := (hc.facIs q hq t.1 (List.of_mem_zip ht).1).2
      rw [← Option.ne_none_iff_isSome]
      intro hnone
      obtain ⟨s0, s1⟩ := this.1 hnone
      rcases hvar with hv0 | hv0
      · simp only [Prod.map] at hv0; rw [hv0] at s0; cases s0
      · simp only [Prod.map] at hv0; rw [hv0] at s1; cases s1
  have hfix : (∀ p ∈ C, ∀ t ∈ p.2, t.2.2 = none → t.2.1.Holds big x) ↔
      ∀ t ∈ current C G, t.1.2.2 = none → t.2.Holds (flowAt M.net (via m x)) := by
    constructor
    · intro h t ht hn
      obtain ⟨q, hq, htq, _⟩ := hT3 t ht
      exact (hfixed t ht hn).1 (h q hq t.1 htq hn)
    · intro h q hq t ht hn
      have : t ∈ C.flatMap (·.2) := List.mem_flatMap.2 ⟨q, hq, ht⟩
      rw [← hT1] at this
      obtain ⟨t', ht', rfl⟩ := List.mem_map.1 this
      exact (hfixed t' ht' hn).2 (h t' ht' hn)
  rw [hfix]
  constructor
  · rintro ⟨⟨h1, h2, h3, h4, h5, h6, h7⟩, h8⟩
    refine ⟨⟨fun e he => (h8 e he).1, h5, ?_, ?_, ?_, ?_⟩, ⟨fun e he => (h8 e he).2, fun n hn hcb => (h1 n hn hcb).1,
      fun a ha => (h2 a ha).1, ?_, hrhs.2 (fun t ht hs => (h3 t ht hs).1)⟩⟩
    · intro n hn
      rw [nodeOk_var M st hdays]
      cases hcb : constBounds n (M.data n.index) with
      | none => exact (h1 n hn hcb).2
      | some q => exact ⟨q, (nodeBounds_const (st := st) hcb).1, h6 n hn q.1 q.2 hcb⟩
    · intro a ha
      exact (aggOk st a _).2 (h2 a ha).2
    · rw [hpairs]
      intro t ht
      cases ho : t.1.2.2 with
      | none => exact h7 t ht ho
      | some i => exact (hvary t ht (by rw [ho]; rfl)).1 (h3 t ht (by rw [ho]; rfl)).2
    · intro k v hk hact
      obtain ⟨hl, hq⟩ := h4 k v hk
      exact (vsOk st hdays negBig big k _ hl.1 hl.2).1 hq hact
    · intro v hvm
      obtain ⟨k, hk⟩ := List.mem_iff_getElem?.1 hvm
      exact (h4 k v hk).1
  · rintro ⟨ha, hw⟩
    have hp := hpairs.1 ha.factors
    refine ⟨⟨fun n hn hcb => ⟨hw.nodes n hn hcb, (nodeOk_var M st hdays _ n).1 (ha.nodes n hn)⟩,
      fun a hm => ⟨hw.aggs a hm, (aggOk st a _).1 (ha.aggs a hm)⟩,
      fun t ht hs => ⟨hrhs.1 hw.factors t ht hs, (hvary t ht hs).2 (hp t ht)⟩, ?_, ha.balanced, ?_, fun t ht _ => hp t ht⟩,
      fun e he => ⟨ha.nonneg e he, hw.edges e he⟩⟩
    · intro k v hk
      have hl := hw.vs v (List.mem_of_getElem? hk)
      exact ⟨hl, (vsOk st hdays negBig big k _ hl.1 hl.2).2 (ha.vs k v hk)⟩
    · intro n hn lo hi hcb
      obtain ⟨q, hq, hb⟩ := (nodeOk_var M st hdays _ n).1 (ha.nodes n hn)
      rw [(nodeBounds_const (st := st) hcb).1] at hq
      cases hq
      exact hb

/-- Objective of a program that starts from zero. -/
theorem objective_zero (lp : Lp) (x : Nat → ℚ) : lp.zeroObj.objective x = 0 := by
  unfold Lp.objective Lp.zeroObj
  simp only
  apply List.sum_eq_zero
  intro y hy
  obtain ⟨p, hp, rfl⟩ := List.mem_map.1 hy
  have : p.1 ∈ lp.colObj.map (fun _ => (0 : ℚ)) := List.fst_mem_of_mem_zipIdx hp
  obtain ⟨_, _, h⟩ := List.mem_map.1 this
  rw [← h, zero_mul]

/-- **A step.** -/
theorem step_main (hc : Created M big negBig s m b N A C V) (hv : M.Valid) (hf : M.FactorsOk) (hi : LpInv b (dynRow C) s.lp)
    (st : StepState) :
    (∀ s', step M s st = .ok s' → ∃ lp' bsN G bsA bsV, s' = { s with lp := lp' } ∧ LpInv b (dynRow C) lp' ∧
      StepData M st big negBig s N bsN G bsA bsV ∧
      (∃ cs, M.net.edges.map (edgeCost M st.metric) = cs.map some ∧
        ∀ x, lp'.objective x = ((M.net.edges.zip cs).map (fun p => p.2 * via m x p.1.index)).sum) ∧
      (0 < st.days → ∀ x, lp'.Feasible x ↔ Allowed M st (via m x) ∧ WithinLimits M big negBig st (via m x))) ∧
    ((∀ e ∈ M.net.edges, (edgeCost M st.metric e).isSome) → (∃ bsN G bsA bsV, StepData M st big negBig s N bsN G bsA bsV) →
      ∃ s', step M s st = .ok s') := by
  obtain ⟨hne, hinv, hall, hlen, hget⟩ := hc.inv hv
  have wf := Created.wf hv
  have hobjlen : s.lp.zeroObj.colObj.length = m.colToEdges.length := by
    show (s.lp.colObj.map _).length = _
    rw [List.length_map, hi.colObj, hc.colObj, List.length_replicate]
  have hedge : ∀ e ∈ M.net.edges, e.index < M.net.edges.length := by
    intro e he
    obtain ⟨k, hk⟩ := List.mem_iff_getElem?.1 he
    rw [(wf.index k e hk).1]
    exact (List.getElem?_eq_some_iff.1 hk).1
  obtain ⟨ho1, ho2⟩ := objectiveLoop_ok M st.metric s.cols M.net.edges s.lp.zeroObj (by
    intro e he
    rw [hlen, hc.colEq hv, hobjlen]
    exact ⟨hedge e he, hc.colBound hv _ (hedge e he)⟩)
  have hparts := fun s' => step_parts M st s s' N hc.nodeRows (hc.nodes_get hv) (hc.hasCols' hv) (pairs_inRange hc hv hf st.metric)
    (by
      intro lp' h
      obtain ⟨_, obj, _, h2, _⟩ := ho1 lp' h
      rw [h2]; exact ⟨rfl, rfl⟩)
  rw [hi.f64Max, hi.f64NegMax, hc.f64Max, hc.f64NegMax] at hparts
  have hinvO : ∀ lpO, objectiveLoop M st.metric s.cols M.net.edges s.lp.zeroObj = .ok lpO → LpInv b (dynRow C) lpO := by
    intro lpO h
    obtain ⟨_, obj, _, h2, h3, _⟩ := ho1 lpO h
    rw [h2]
    have hz : s.lp.zeroObj.colObj.length = s.lp.colObj.length := by simp [Lp.zeroObj]
    exact hi.withObj obj (h3.trans hz)
  refine ⟨?_, ?_⟩
  · intro s' hs'
    obtain ⟨lpO, bsN, G, bsA, bsV, lp1, lp2, p1, p2, p3, p4, rfl⟩ := (hparts s').1 hs'
    obtain ⟨lp1', lp2', r1, r2, r3, r4, r5⟩ := rows_step hc hv hf (hinvO lpO p1) p2
    rw [p3] at r1; cases r1
    rw [p4] at r2; cases r2
    refine ⟨lp2, bsN, G, bsA, bsV, rfl, r3, p2, ?_, ?_⟩
    · obtain ⟨cs, obj, h1, h2, h3, h4⟩ := ho1 lpO p1
      refine ⟨cs, h1, fun x => ?_⟩
      have : lp2.objective x = lpO.objective x := by unfold Lp.objective; rw [r4]
      rw [this, h4, objective_zero, zero_add]
      simp only [hc.colEq hv]
    · intro hdays x
      rw [← rows_allowed hc hv hf hdays p2 x, ← r5 x]
      unfold Lp.Feasible
      apply and_congr Iff.rfl
      unfold Lp.ColsHold
      rw [r3.colLower, r3.colUpper, r3.colType, hc.colLower, hc.colUpper, hc.colType]
      constructor
      · intro h e he
        have hb := hc.colBound hv e he
        obtain ⟨h1, h2, _⟩ := h (colOf m e) 0 big (by simp [hb]) (by simp [hb])
        exact ⟨h1, h2⟩
      · intro h c lo hi hlo hhi
        have hcl : c < m.colToEdges.length := by
          have := (List.getElem?_eq_some_iff.1 hlo).1
          simpa using this
        simp only [List.getElem?_replicate, hcl, if_true, Option.some.injEq] at hlo hhi
        subst hlo hhi
        obtain ⟨e, he, rfl⟩ := hc.colSurj hv c hcl
        obtain ⟨h1, h2⟩ := h e he
        refine ⟨h1, h2, ?_⟩
        simp [hcl]
  · rintro hcost ⟨bsN, G, bsA, bsV, hd⟩
    obtain ⟨lpO, hO⟩ := ho2 hcost
    obtain ⟨lp1, lp2, r1, r2, _⟩ := rows_step hc hv hf (hinvO lpO hO) hd
    exact ⟨_, (hparts _).2 ⟨lpO, bsN, G, bsA, bsV, lp1, lp2, hO, hd, r1, r2, rfl⟩⟩

end

end Verif.Solver

namespace Verif.Solver

open Verif.State (NodeKind Edge)
open Verif.Topology (Network TNode)

/-! ## Invariant over all steps -/

/-- What holds of every program reached. -/
def Inv (M : Model) (big negBig : ℚ) (s : Built) : Prop :=
  ∃ m b N A C V, Created M big negBig s m b N A C V ∧ LpInv b (dynRow C) s.lp

theorem reach_inv {M : Model} (hv : M.Valid) (hx : M.NoExclusivity) (hf : M.FactorsOk) {big negBig : ℚ} {s : Built}
    (h : Reach M big negBig [] s) : Inv M big negBig s := by
  induction h with
  | create s h =>
    have hne : M.net.edges ≠ [] := by
      intro h0
      unfold create at h
      rw [(C16_no_edges M.net).1 h0] at h
      cases h
    obtain ⟨s', m, b, N, A, C, V, h1, h2, h3⟩ := create_ok M hv hne hx hf.setup big negBig
    rw [h] at h1; cases h1
    exact ⟨m, b, N, A, C, V, h3, by rw [h2]; exact LpInv.build b _⟩
  | step s s' st _ hs ih =>
    obtain ⟨m, b, N, A, C, V, h1, h2⟩ := ih
    obtain ⟨lp', _, _, _, _, rfl, h3, _⟩ := (step_main h1 hv hf h2 st).1 s' hs
    exact ⟨m, b, N, A, C, V, h1.withLp lp', h3⟩

/-! ## Flows that agree on all edges -/

section
variable {M : Model} {f g : Nat → ℚ} (hv : M.Valid) (h : ∀ e < M.net.edges.length, f e = g e)
include hv h

theorem nodeFlow_agree : ∀ n ∈ M.net.nodes, nodeFlow f n = nodeFlow g n := by
  intro n hn
  apply nodeFlow_congr
  intro e he
  exact h e (edges_in_range (Created.wf hv) n hn e he)

theorem flowAt_agree : flowAt M.net f = flowAt M.net g := by
  funext i
  unfold flowAt
  cases hn : M.net.nodes[i]? with
  | none => rfl
  | some n => simp [nodeFlow_agree hv h n (List.mem_of_getElem? hn)]

theorem aggFlow_agree (a : AggNode) : aggFlow M.net f a = aggFlow M.net g a := by
  unfold aggFlow; rw [flowAt_agree hv h]

theorem vsUse_agree (v : VStore) : vsUse M.net f v = vsUse M.net g v := by
  unfold vsUse; rw [flowAt_agree hv h]

theorem Allowed.agree {st : StepState} (ha : Allowed M st f) : Allowed M st g := by
  refine ⟨?_, ?_, ?_, ?_, ?_, ?_⟩
  · intro e he; rw [← h e he]; exact ha.nonneg e he
  · intro n hn hk
    have hb := ha.balanced n hn hk
    have h1 : n.incoming.map f = n.incoming.map g :=
      List.map_congr_left (fun e he => h e (edges_in_range (Created.wf hv) n hn e (Or.inl he)))
    have h2 : n.outgoing.map f = n.outgoing.map g :=
      List.map_congr_left (fun e he => h e (edges_in_range (Created.wf hv) n hn e (Or.inr he)))
    rwa [h1, h2] at hb
  · intro n hn
    have := ha.nodes n hn
    unfold NodeOk at this ⊢
    rwa [nodeFlow_agree hv h n hn] at this
  · intro a hm
    rw [← aggFlow_agree hv h]; exact ha.aggs a hm
  · rw [← flowAt_agree hv h]; exact ha.factors
  · intro k v hk hact
    rw [← vsUse_agree hv h]; exact ha.vs k v hk hact

theorem WithinLimits.agree {st : StepState} {big negBig : ℚ} (ha : WithinLimits M big negBig st f) :
    WithinLimits M big negBig st g := by
  refine ⟨?_, ?_, ?_, ?_, ha.factors⟩
  · intro e he; rw [← h e he]; exact ha.edges e he
  · intro n hn hcb
    rw [← nodeFlow_agree hv h n hn]; exact ha.nodes n hn hcb
  · intro a hm
    rw [← aggFlow_agree hv h]; exact ha.aggs a hm
  · intro v hvm
    rw [← vsUse_agree hv h]; exact ha.vs v hvm

theorem totalCost_agree (cost : TNode → ℚ) : totalCost M cost f = totalCost M cost g := by
  unfold totalCost
  congr 1
  apply List.map_congr_left
  intro n hn
  rw [nodeFlow_agree hv h n hn]

end

/-! ## When a step succeeds -/

theorem all_some {α β : Type} {g : α → Option β} (l : List α) : (∃ bs : List β, bs.map some = l.map g) ↔ ∀ a ∈ l, (g a).isSome := by
  induction l with
  | nil => simp
  | cons a l ih =>
    rw [List.forall_mem_cons, ← ih]
    constructor
    · rintro ⟨bs, h⟩
      cases bs with
      | nil => simp at h
      | cons b bs =>
        simp only [List.map_cons, List.cons.injEq] at h
        exact ⟨by rw [← h.1]; rfl, bs, h.2⟩
    · rintro ⟨h, bs, hb⟩
      obtain ⟨b, hg⟩ := Option.isSome_iff_exists.1 h
      exact ⟨b :: bs, by simp [hg, hb]⟩

theorem edgeCosts_iff {M : Model} (hv : M.Valid) (σ : Nat → Option ℚ) : (∀ e ∈ M.net.edges, (edgeCost M σ e).isSome) ↔
    ∀ n ∈ M.net.nodes, n.incoming ≠ [] ∨ n.outgoing ≠ [] → ∃ c, CostIs M σ n c := by
  have wf := Created.wf hv
  have hout : ∀ n, (outgoingCost M σ n).isSome ↔ ∃ c, CostIs M σ n c := by
    intro n
    simp only [← nodeCost_iff, ← Option.isSome_iff_exists]
    unfold outgoingCost
    cases n.kind <;> simp
  have hin : ∀ n, (incomingCost M σ n).isSome ↔ ∃ c, CostIs M σ n c := by
    intro n
    simp only [← nodeCost_iff, ← Option.isSome_iff_exists]
    unfold incomingCost
    cases n.kind <;> simp
  have hedge : ∀ e ∈ M.net.edges, ∃ f t, M.net.nodes[e.fromNode]? = some f ∧ M.net.nodes[e.toNode]? = some t ∧
      e.index ∈ f.outgoing ∧ e.index ∈ t.incoming ∧
      ((edgeCost M σ e).isSome ↔ (outgoingCost M σ f).isSome ∧ (incomingCost M σ t).isSome) := by
    intro e he
    obtain ⟨k, hk⟩ := List.mem_iff_getElem?.1 he
    obtain ⟨h1, h2, h3⟩ := wf.index k e hk
    have hf := List.getElem?_eq_getElem h2
    have ht := List.getElem?_eq_getElem h3
    refine ⟨_, _, hf, ht, ?_, ?_, ?_⟩
    · rw [wf.outgoing _ _ hf]
      exact List.mem_map.2 ⟨e, List.mem_filter.2 ⟨he, by simp⟩, rfl⟩
    · rw [wf.incoming _ _ ht]
      exact List.mem_map.2 ⟨e, List.mem_filter.2 ⟨he, by simp⟩, rfl⟩
    · unfold edgeCost
      rw [hf, ht]
      simp only
      cases outgoingCost M σ M.net.nodes[e.fromNode] <;> cases incomingCost M σ M.net.nodes[e.toNode] <;> simp
  constructor
  · intro h n hn hne
    obtain ⟨k, hk⟩ := List.mem_iff_getElem?.1 hn
    rcases hne with hne | hne
    · obtain ⟨e, es, he⟩ := List.exists_cons_of_ne_nil hne
      have hm : e ∈ n.incoming := by rw [he]; simp
      rw [wf.incoming k n hk] at hm
      obtain ⟨ed, hed, _⟩ := List.mem_map.1 hm
      obtain ⟨hed1, hed2⟩ := List.mem_filter.1 hed
      simp only [decide_eq_true_eq] at hed2
      obtain ⟨f, t, hf, ht, _, _, hi⟩ := hedge ed hed1
      rw [hed2, hk] at ht; cases ht
      exact (hin n).1 (hi.1 (h ed hed1)).2
    · obtain ⟨e, es, he⟩ := List.exists_cons_of_ne_nil hne
      have hm : e ∈ n.outgoing := by rw [he]; simp
      rw [wf.outgoing k n hk] at hm
      obtain ⟨ed, hed, _⟩ := List.mem_map.1 hm
      obtain ⟨hed1, hed2⟩ := List.mem_filter.1 hed
      simp only [decide_eq_true_eq] at hed2
      obtain ⟨f, t, hf, ht, _, _, hi⟩ := hedge ed hed1
      rw [hed2, hk] at hf; cases hf
      exact (hout n).1 (hi.1 (h ed hed1)).1
  · intro h e he
    obtain ⟨f, t, hf, ht, h1, h2, hi⟩ := hedge e he
    exact hi.2 ⟨(hout f).2 (h f (List.mem_of_getElem? hf) (Or.inr (List.ne_nil_of_mem h1))),
      (hin t).2 (h t (List.mem_of_getElem? ht) (Or.inl (List.ne_nil_of_mem h2)))⟩

theorem valueOr_isSome {σ : Nat → Option ℚ} {m : Option Metric} {d : ℚ} : (valueOr d σ m).isSome ↔ ∃ v, ValueIs σ m d v := by
  simp only [← valueOr_iff, ← Option.isSome_iff_exists]

theorem nodeBounds_isSome (M : Model) (st : StepState) (n : TNode) : (nodeBounds n (M.data n.index) st).isSome ↔
    (n.kind ≠ .storage → (∃ v, ValueIs st.metric (M.data n.index).minFlow 0 v) ∧
      (∃ v, ValueIs st.metric (M.data n.index).maxFlow f64MAX v)) ∧
    (n.kind = .storage → (∃ v, st.volume n.index = some v) ∧
      (∃ v, ValueIs st.metric (M.data n.index).minVolume 0 v) ∧ (∃ v, ValueIs st.metric (M.data n.index).maxVolume f64MAX v)) := by
  simp only [← valueOr_isSome]
  unfold nodeBounds
  cases n.kind with
  | storage =>
    simp only [ne_eq, not_true_eq_false, false_implies, true_and, true_implies]
    cases st.volume n.index <;> cases valueOr 0 st.metric (M.data n.index).minVolume <;>
      cases valueOr f64MAX st.metric (M.data n.index).maxVolume <;> simp
  | _ =>
    simp only [ne_eq, reduceCtorEq, not_false_eq_true, true_implies, false_implies, and_true]
    cases valueOr 0 st.metric (M.data n.index).minFlow <;> cases valueOr f64MAX st.metric (M.data n.index).maxFlow <;> simp

theorem stepData_iff {M : Model} {big negBig : ℚ} {s : Built} {m : ColMap} {b : LpBuilder} {N : List (Nat × Row × TNode)}
    {A : List (Nat × Row × AggNode)} {C : List (Nat × List FRow)} {V : List (Nat × Row × VStore)}
    (hc : Created M big negBig s m b N A C V) (hf : M.FactorsOk) (st : StepState) :
    (∃ bsN G bsA bsV, StepData M st big negBig s N bsN G bsA bsV) ↔
    (∀ n ∈ M.net.nodes, (nodeBounds n (M.data n.index) st).isSome) ∧ (∀ a ∈ M.aggs, (aggBounds st a).isSome) ∧
    (∀ a ∈ M.aggs, ∀ F, a.factors = some F → ∃ ps, F.pairs a.nodes st.metric = .ok ps ∧ ∀ p ∈ ps, p.f0.isSome ∧ p.f1.isSome) ∧
    (∀ k < M.vs.length, (vsRowBounds st negBig big k).isSome) := by
  have hN : (∀ n ∈ M.net.nodes, (nodeBounds n (M.data n.index) st).isSome) ↔
      ∀ p ∈ N, ((nodeBounds p.2.2 (M.data p.2.2.index) st).map (fun b => (p.1, b.1, b.2))).isSome := by
    simp only [Option.isSome_map]
    constructor
    · intro h p hp
      have : p.2.2 ∈ N.map (·.2.2) := List.mem_map_of_mem hp
      rw [hc.nodeList] at this
      exact h _ (List.mem_of_mem_filter this)
    · intro h n hn
      cases hcb : constBounds n (M.data n.index) with
      | some q => rw [(nodeBounds_const (st := st) hcb).1]; rfl
      | none =>
        have : n ∈ N.map (·.2.2) := by
          rw [hc.nodeList]; exact List.mem_filter.2 ⟨hn, by simp [hcb]⟩
        obtain ⟨p, hp, rfl⟩ := List.mem_map.1 this
        exact h p hp
  have hA : (∀ a ∈ M.aggs, (aggBounds st a).isSome) ↔
      ∀ p ∈ s.aggRows.zip M.aggs, ((aggBounds st p.2).map (fun b => (p.1, b.1, b.2))).isSome := by
    simp only [Option.isSome_map]
    rw [hc.aggRows, ← hc.aggList, List.zip_map']
    constructor
    · intro h p hp
      obtain ⟨q, hq, rfl⟩ := List.mem_map.1 hp
      exact h _ (List.mem_map_of_mem hq)
    · intro h a ha
      obtain ⟨q, hq, rfl⟩ := List.mem_map.1 ha
      exact h _ (List.mem_map.2 ⟨q, hq, rfl⟩)
  have hV : (∀ k < M.vs.length, (vsRowBounds st negBig big k).isSome) ↔
      ∀ p ∈ s.vsRows.zip (List.range M.vs.length), ((vsRowBounds st negBig big p.2).map (fun b => (p.1, b.1, b.2))).isSome := by
    simp only [Option.isSome_map]
    have hl : s.vsRows.length = M.vs.length := by rw [hc.vsRows, ← hc.vsList]; simp
    constructor
    · intro h p hp
      exact h _ (List.mem_range.1 (List.of_mem_zip hp).2)
    · intro h k hk
      refine h (s.vsRows[k]'(by omega), k) (List.mem_iff_getElem?.2 ⟨k, ?_⟩)
      rw [List.getElem?_zip_eq_some]
      exact ⟨List.getElem?_eq_getElem _, by rw [List.getElem?_range hk]⟩
  rw [hN, hA, hV, ← all_some, ← all_some, ← all_some]
  constructor
  · rintro ⟨bsN, G, bsA, bsV, hd⟩
    refine ⟨⟨bsN, hd.nodes⟩, ⟨bsA, hd.aggs⟩, ?_, ⟨bsV, hd.vs⟩⟩
    intro a ha F hF
    obtain ⟨hz1, hz2⟩ := hc.zipG hf hd
    obtain ⟨hT1, hT2, hT3⟩ := hc.current_mem hf hd
    obtain ⟨j, hj⟩ := List.mem_iff_getElem?.1 ha
    obtain ⟨q, hq, rfl⟩ := hc.facAll j a F hj hF
    obtain ⟨ps, hps⟩ := hz2 q hq
    obtain ⟨a', F', e1, e2, _, e4, e5, e6⟩ := hz1 _ hps
    simp only at e1
    rw [hj] at e1; cases e1
    rw [hF] at e2; cases e2
    refine ⟨ps, e4, fun p hp => ?_⟩
    obtain ⟨k, hk⟩ := List.mem_iff_getElem?.1 hp
    have hkl : k < q.2.length := by rw [e5]; exact (List.getElem?_eq_some_iff.1 hk).1
    have ht := e6 (q.2[k], p) (List.mem_iff_getElem?.2 ⟨k, by
      rw [List.getElem?_zip_eq_some]; exact ⟨List.getElem?_eq_getElem hkl, hk⟩⟩)
    cases ho : q.2[k].2.2 with
    | some i =>
      exact hd.finite (p, q.2[k].2.2) (by rw [hT2]; exact List.mem_map.2 ⟨_, ht, rfl⟩) (by rw [ho]; rfl)
    | none =>
      obtain ⟨q', hq', htq, hag⟩ := hT3 _ ht
      obtain ⟨_, _, _, _, _, _, _, g5, g6, _⟩ := hc.pair hf hq' htq
      obtain ⟨s0, s1⟩ := (hc.facIs q' hq' _ htq).2.1 ho
      obtain ⟨c0, h0⟩ := Option.isSome_iff_exists.1 s0
      obtain ⟨c1, h1⟩ := Option.isSome_iff_exists.1 s1
      have p0 := hag.f0 _ h0
      have p1 := hag.f1 _ h1
      simp only at p0 p1
      rw [p0, p1]
      cases c0 with
      | none => exact absurd h0 g5
      | some _ =>
        cases c1 with
        | none => exact absurd h1 g6
        | some _ => exact ⟨rfl, rfl⟩
  · rintro ⟨⟨bsN, h1⟩, ⟨bsA, h2⟩, h3, ⟨bsV, h4⟩⟩
    have hp : ∀ q ∈ C, ∃ a F ps, M.aggs[q.1]? = some a ∧ a.factors = some F ∧ F.constPairs a.nodes = .ok (q.2.map (·.1)) ∧
        F.pairs a.nodes st.metric = .ok ps ∧ pairsOf M st.metric q.1 = some ps ∧ q.2.length = ps.length ∧
        ∀ p ∈ ps, p.f0.isSome ∧ p.f1.isSome := by
      intro q hq
      obtain ⟨a, F, e1, e2, e3⟩ := hc.facOf q hq
      have ha := List.mem_of_getElem? e1
      obtain ⟨ps, e4, e5⟩ := h3 a ha F e2
      refine ⟨a, F, ps, e1, e2, e3, e4, by simp [pairsOf, e1, e2, e4], ?_, e5⟩
      have := (C23_pairs_agree F a.nodes st.metric _ _ e3 e4 (hf.rhs a ha F e2)).length_eq
      simpa using this
    have hG : ∃ G : List (List Pair), G.map some = s.factorRows.map (fun r => pairsOf M st.metric r.1) := by
      rw [all_some, hc.factorRows]
      intro r hr
      obtain ⟨q, hq, rfl⟩ := List.mem_map.1 hr
      obtain ⟨_, _, ps, _, _, _, _, h, _⟩ := hp q hq
      simp only [h]; rfl
    obtain ⟨G, hG⟩ := hG
    have hzip : ∀ r ∈ s.factorRows.zip G, pairsOf M st.metric r.1.1 = some r.2 := by
      rintro ⟨r, g⟩ hr
      obtain ⟨k, hk⟩ := List.mem_iff_getElem?.1 hr
      rw [List.getElem?_zip_eq_some] at hk
      have := congrArg (fun l => l[k]?) hG
      simp only [List.getElem?_map, hk.1, hk.2, Option.map_some, Option.some.injEq] at this
      exact this.symm
    have hrow : ∀ r ∈ s.factorRows.zip G, ∃ q ∈ C, r.1 = (q.1, q.2.map (·.2.2)) := by
      intro r hr
      have := (List.of_mem_zip hr).1
      rw [hc.factorRows] at this
      obtain ⟨q, hq, h⟩ := List.mem_map.1 this
      exact ⟨q, hq, h.symm⟩
    refine ⟨bsN, G, bsA, bsV, h1, hG.symm, ?_, ?_, h2, h4⟩
    · intro r hr
      obtain ⟨q, hq, hrq⟩ := hrow r hr
      obtain ⟨_, _, ps, _, _, _, _, g1, g2, _⟩ := hp q hq
      have := hzip r hr
      rw [hrq] at this ⊢
      simp only at this
      rw [g1] at this
      cases this
      simpa using g2
    · intro t ht _
      obtain ⟨r, hr, htr⟩ := List.mem_flatMap.1 ht
      obtain ⟨q, hq, hrq⟩ := hrow r hr
      obtain ⟨_, _, ps, _, _, _, _, g1, _, g3⟩ := hp q hq
      have := hzip r hr
      rw [hrq] at this
      simp only at this
      rw [g1] at this
      cases this
      exact g3 _ (List.of_mem_zip htr).1

end Verif.Solver
