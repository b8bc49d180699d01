import Verif.Lemmas.SolverRows

/-! # The rows of the program after a step, in terms of flows -/

namespace Verif.Solver

open Verif.State (NodeKind Edge)
open Verif.Topology (Network TNode)

/-- Rows whose coefficients vary. -/
def dynRow (C : List (Nat × List FRow)) (i : Nat) : Prop := ∃ p ∈ C, ∃ t ∈ p.2, t.2.2 = some i

section

variable {M : Model} {big negBig : ℚ} {s : Built} {m : ColMap} {b : LpBuilder} {N : List (Nat × Row × TNode)}
  {A : List (Nat × Row × AggNode)} {C : List (Nat × List FRow)} {V : List (Nat × Row × VStore)}

theorem Created.wf (hv : M.Valid) : WF M.net := by
  obtain ⟨tb, htb⟩ := hv.built
  exact wf_of_build tb M.net htb

theorem Created.inv (hc : Created M big negBig s m b N A C V) (hv : M.Valid) :
    M.net.edges ≠ [] ∧ ColInv M.net m ∧ (∀ e < M.net.edges.length, ∃ c, m.edgeToCol.find e = some c) ∧
    s.cols.length = M.net.edges.length ∧ ∀ e < M.net.edges.length, s.cols[e]? = m.edgeToCol.find e := by
  have hne : M.net.edges ≠ [] := fun h0 => by
    have := hc.colMap
    rw [(C16_no_edges M.net).1 h0] at this; cases this
  obtain ⟨m', h1, hinv, hall⟩ := createColMap_ok (Created.wf hv) hne
  rw [hc.colMap] at h1; cases h1
  obtain ⟨cols, h2, h3, h4⟩ := build_ok hinv hne hall
  rw [hc.cols] at h2; cases h2
  exact ⟨hne, hinv, hall, h3, h4⟩

theorem Created.colEq (hc : Created M big negBig s m b N A C V) (hv : M.Valid) (e : Nat) : s.cols.getD e 0 = colOf m e := by
  obtain ⟨_, hinv, _, hlen, hget⟩ := hc.inv hv
  rw [List.getD_eq_getElem?_getD]
  unfold Verif.Solver.colOf ColMap.col
  by_cases he : e < M.net.edges.length
  · rw [hget e he]
  · rw [List.getElem?_eq_none (by omega)]
    cases hf : m.edgeToCol.find e with
    | none => rfl
    | some c => exact absurd (hinv.bound e c hf) he

theorem Created.flow (hc : Created M big negBig s m b N A C V) (hv : M.Valid) (x : Nat → ℚ) : s.flow x = via m x := by
  funext e
  unfold Built.flow
  rw [hc.colEq hv]

theorem edges_in_range (wf : WF M.net) : ∀ n ∈ M.net.nodes, ∀ e, e ∈ n.incoming ∨ e ∈ n.outgoing → e < M.net.edges.length := by
  intro n hn e he
  obtain ⟨k, hk⟩ := List.mem_iff_getElem?.1 hn
  rcases he with he | he
  · obtain ⟨ed, h, _⟩ := (wf.mem_incoming hk e).1 he
    exact (List.getElem?_eq_some_iff.1 h).1
  · obtain ⟨ed, h, _⟩ := (wf.mem_outgoing hk e).1 he
    exact (List.getElem?_eq_some_iff.1 h).1

theorem Created.hasCols' (hc : Created M big negBig s m b N A C V) (hv : M.Valid) : HasCols' s.cols M.net := by
  intro n hn e he
  obtain ⟨_, _, _, hlen, _⟩ := hc.inv hv
  rw [hlen]
  exact edges_in_range (Created.wf hv) n hn e he

theorem Created.hasCols (hc : Created M big negBig s m b N A C V) (hv : M.Valid) : HasCols m M.net := by
  intro n hn e he
  obtain ⟨_, _, hall, _⟩ := hc.inv hv
  exact hall e (edges_in_range (Created.wf hv) n hn e he)

theorem Created.nodes_get (hc : Created M big negBig s m b N A C V) (hv : M.Valid) :
    ∀ p ∈ N, M.net.nodes[p.2.2.index]? = some p.2.2 := by
  intro p hp
  have h : p.2.2 ∈ N.map (·.2.2) := List.mem_map_of_mem hp
  rw [hc.nodeList] at h
  obtain ⟨k, hk⟩ := List.mem_iff_getElem?.1 (List.mem_of_mem_filter h)
  rw [(Created.wf hv).nodeIndex k _ hk]
  exact hk

/-- A factor pair at setup. -/
theorem Created.pair (hc : Created M big negBig s m b N A C V) (hf : M.FactorsOk) {q : Nat × List FRow} (hq : q ∈ C) {t : FRow}
    (ht : t ∈ q.2) : ∃ a F, M.aggs[q.1]? = some a ∧ a ∈ M.aggs ∧ a.factors = some F ∧
      F.constPairs a.nodes = .ok (q.2.map (·.1)) ∧ t.1 ∈ a.setupPairs ∧ t.1.f0 ≠ some none ∧ t.1.f1 ≠ some none ∧
      t.1.nodes0 ∈ a.nodes ∧ t.1.nodes1 ∈ a.nodes := by
  obtain ⟨a, F, h1, h2, h3⟩ := hc.facOf q hq
  have ha := List.mem_of_getElem? h1
  obtain ⟨cps, h4, h5⟩ := hf.setup a ha F h2
  rw [h3] at h4; cases h4
  have hmem : t.1 ∈ q.2.map (·.1) := List.mem_map_of_mem ht
  have hnodes := constPairs_nodes F a.nodes _ h3 _ hmem
  refine ⟨a, F, h1, ha, h2, h3, ?_, (h5 _ hmem).1, (h5 _ hmem).2, hnodes.1, hnodes.2⟩
  unfold AggNode.setupPairs
  rw [h2]
  simp only [h3]
  exact hmem

theorem Created.facRow (hc : Created M big negBig s m b N A C V) (hv : M.Valid) (hf : M.FactorsOk) {q : Nat × List FRow}
    (hq : q ∈ C) {t : FRow} (ht : t ∈ q.2) : t.2.1.Sorted ∧ t.2.1.lower = t.1.rhs ∧ t.2.1.upper = some t.1.rhs ∧
      (∀ x, value t.2.1.columns x = (t.1.f0.bind id).getD 1 * setFlow (flowAt M.net (via m x)) t.1.nodes0
        + (t.1.f1.bind id).getD 1 * setFlow (flowAt M.net (via m x)) t.1.nodes1) ∧
      (∀ c, c ∈ t.2.1.columns.map (·.1) ↔ ∃ e ∈ t.1.edges M.net, m.col e = some c) ∧
      (∀ i, t.2.2 = some i → b.rows[i]? = some t.2.1) := by
  obtain ⟨a, F, h1, ha, h2, h3, h4, h5, h6, h7, h8⟩ := hc.pair hf hq ht
  obtain ⟨r, k1, k2, k3, k4, k5⟩ := factorRow_ok m M.net (hc.hasCols hv) t.1 (hv.aggs a ha _ h7) (hv.aggs a ha _ h8) h5 h6
  have hr := (hc.facIs q hq t ht).1
  rw [k1] at hr
  simp only [Option.some.injEq] at hr
  subst hr
  refine ⟨k2, k3, k4, k5, fun c => factorRow_keys m M.net t.1 h5 h6 _ k1 c, ?_⟩
  intro i hi
  apply hc.ids (i, t.2.1)
  unfold named
  simp only [List.mem_append]
  refine Or.inl (Or.inr ?_)
  unfold variableOf
  exact List.mem_filterMap.2 ⟨t, List.mem_flatMap.2 ⟨q, hq, ht⟩, by simp [hi]⟩

theorem same_column {m : ColMap} (hinv : ColInv M.net m) {e e' c : Nat} (h : m.col e = some c) (h' : m.col e' = some c) :
    SameChain M.net e e' := hinv.chain e e' c h h'

/-- Different varying pairs have different rows. -/
theorem Created.ids_nodup (hc : Created M big negBig s m b N A C V) (hv : M.Valid) (hf : M.FactorsOk) :
    ((C.flatMap (·.2)).filterMap (·.2.2)).Nodup := by
  obtain ⟨_, hinv, hall, _, _⟩ := hc.inv hv
  have hd := hf.distinct
  rw [← hc.facPairs, List.pairwise_map] at hd
  rw [List.Nodup, List.pairwise_filterMap]
  apply List.Pairwise.imp_of_mem _ hd
  intro t t' ht ht' hR i hi i' hi' hii
  subst hii
  obtain ⟨q, hq, ht⟩ := List.mem_flatMap.1 ht
  obtain ⟨q', hq', ht'⟩ := List.mem_flatMap.1 ht'
  obtain ⟨a, F, e1, ha, e2, e3, e4, e5, e6, e7, e8⟩ := hc.pair hf hq ht
  obtain ⟨a', F', e1', ha', e2', e3', e4', e5', e6', e7', e8'⟩ := hc.pair hf hq' ht'
  obtain ⟨_, _, _, _, hk, hid⟩ := hc.facRow hv hf hq ht
  obtain ⟨_, _, _, _, hk', hid'⟩ := hc.facRow hv hf hq' ht'
  have hvar : ∀ (q : Nat × List FRow), q ∈ C → ∀ t ∈ q.2, t.2.2 = some i → t.1.Varying := by
    intro q hq t ht hi
    have := (hc.facIs q hq t ht).2
    by_contra hcon
    unfold CPair.Varying at hcon
    push Not at hcon
    have := this.2 ⟨Option.isSome_iff_ne_none.2 hcon.1, Option.isSome_iff_ne_none.2 hcon.2⟩
    rw [hi] at this; cases this
  apply hR (hvar q hq t ht hi) (hvar q' hq' t' ht' hi')
  have hrow : t.2.1 = t'.2.1 := by
    have h1 := hid i hi
    have h2 := hid' i hi'
    rw [h1] at h2
    simpa using h2
  have hcol : ∀ (p : CPair) (a : AggNode), a ∈ M.aggs → p.nodes0 ∈ a.nodes → p.nodes1 ∈ a.nodes → ∀ e ∈ p.edges M.net,
      ∃ c, m.col e = some c := by
    intro p a ha h0 h1 e he
    have key : ∀ is ∈ a.nodes, ∀ e ∈ edgesOfSet M.net is, ∃ c, m.col e = some c := by
      intro is _ e he
      obtain ⟨i, _, he⟩ := List.mem_flatMap.1 he
      cases hn : M.net.nodes[i]? with
      | none => simp [hn] at he
      | some n =>
        simp only [hn, Option.map_some, Option.getD_some] at he
        refine hc.hasCols hv n (List.mem_of_getElem? hn) e ?_
        unfold edgesOf at he
        cases hk : n.kind with
        | link => rw [hk] at he; exact Or.inr he
        | input => rw [hk] at he; exact Or.inr he
        | output => rw [hk] at he; exact Or.inl he
        | storage => rw [hk] at he; exact List.mem_append.1 he
    rcases List.mem_append.1 he with he | he
    · exact key _ h0 e he
    · exact key _ h1 e he
  constructor
  · intro e he
    obtain ⟨c, hce⟩ := hcol t.1 a ha e7 e8 e he
    have : c ∈ t'.2.1.columns.map (·.1) := by rw [← hrow]; exact (hk c).2 ⟨e, he, hce⟩
    obtain ⟨e', he', hce'⟩ := (hk' c).1 this
    exact ⟨e', he', same_column hinv hce hce'⟩
  · intro e he
    obtain ⟨c, hce⟩ := hcol t'.1 a' ha' e7' e8' e he
    have : c ∈ t.2.1.columns.map (·.1) := by rw [hrow]; exact (hk' c).2 ⟨e, he, hce⟩
    obtain ⟨e', he', hce'⟩ := (hk c).1 this
    exact ⟨e', he', same_column hinv hce hce'⟩

/-! ## Rows of pairs with the pairs of the step -/

/-- Rows of pairs, each with the pair of the step. -/
def current (C : List (Nat × List FRow)) (G : List (List Pair)) : List (FRow × Pair) := (C.zip G).flatMap (fun q => q.1.2.zip q.2)

theorem current_map (C : List (Nat × List FRow)) : ∀ (G : List (List Pair)), C.length = G.length →
    (∀ q ∈ C.zip G, q.1.2.length = q.2.length) →
    (current C G).map (·.1) = C.flatMap (·.2) ∧
    withRows ((C.map (fun p => (p.1, p.2.map (·.2.2)))).zip G) = (current C G).map (fun t => (t.2, t.1.2.2)) := by
  induction C with
  | nil => intro G _ _; simp [current, withRows]
  | cons c C ih =>
    intro G hl hq
    cases G with
    | nil => simp at hl
    | cons g G =>
      rw [List.zip_cons_cons, List.forall_mem_cons] at hq
      obtain ⟨h1, h2⟩ := ih G (by simpa using hl) hq.2
      have hswap : ∀ (g : List Pair) (l : List FRow), g.zip (l.map (·.2.2)) = (l.zip g).map (fun t => (t.2, t.1.2.2)) := by
        intro g
        induction g with
        | nil => intro l; simp
        | cons p g ih => intro l; cases l with
          | nil => rfl
          | cons t l => simp [ih l]
      unfold current at h1 h2 ⊢
      unfold withRows at h2 ⊢
      simp only [List.zip_cons_cons, List.flatMap_cons, List.map_cons, List.map_append, h1, h2]
      refine ⟨?_, ?_⟩
      · have hq1 : c.2.length = g.length := hq.1
        rw [List.map_fst_zip (by omega)]
      · congr 1
        exact hswap g c.2

theorem Created.current_mem (hc : Created M big negBig s m b N A C V) (hf : M.FactorsOk) {st : StepState}
    {bsN bsA bsV : List (Nat × ℚ × ℚ)} {G : List (List Pair)} (hd : StepData M st big negBig s N bsN G bsA bsV) :
    (current C G).map (·.1) = C.flatMap (·.2) ∧
    withRows (s.factorRows.zip G) = (current C G).map (fun t => (t.2, t.1.2.2)) ∧
    (∀ t ∈ current C G, ∃ q ∈ C, t.1 ∈ q.2 ∧ Agree t.1.1 t.2) := by
  have hlen : C.length = G.length := by
    have := congrArg List.length hd.pairs
    simpa [hc.factorRows] using this
  have hq : ∀ q ∈ C.zip G, q.1.2.length = q.2.length := by
    intro q hq
    have := hd.lengths (((q.1.1, q.1.2.map (·.2.2))), q.2) (by
      rw [hc.factorRows, List.zip_map_left]
      exact List.mem_map.2 ⟨q, hq, rfl⟩)
    simpa using this
  obtain ⟨h1, h2⟩ := current_map C G hlen hq
  refine ⟨h1, by rw [hc.factorRows]; exact h2, ?_⟩
  intro t ht
  obtain ⟨q, hqm, htq⟩ := List.mem_flatMap.1 ht
  refine ⟨q.1, (List.of_mem_zip hqm).1, (List.of_mem_zip htq).1, ?_⟩
  obtain ⟨a, F, e1, e2, e3⟩ := hc.facOf q.1 (List.of_mem_zip hqm).1
  have hpo : pairsOf M st.metric q.1.1 = some q.2 := by
    have hp := hd.pairs
    rw [hc.factorRows, List.map_map] at hp
    have hz : ∀ (C : List (Nat × List FRow)) (G : List (List Pair)), C.map (fun r => pairsOf M st.metric r.1) = G.map some →
        ∀ q ∈ C.zip G, pairsOf M st.metric q.1.1 = some q.2 := by
      intro C
      induction C with
      | nil => intro G _ q hq; simp at hq
      | cons c C ih =>
        intro G h q hq
        cases G with
        | nil => simp at h
        | cons g G =>
          simp only [List.map_cons, List.cons.injEq] at h
          rw [List.zip_cons_cons, List.mem_cons] at hq
          rcases hq with rfl | hq
          · exact h.1
          · exact ih G h.2 q hq
    exact hz C G hp q hqm
  have hps : F.pairs a.nodes st.metric = .ok q.2 := by
    unfold pairsOf at hpo
    simp only [e1, e2] at hpo
    cases hp : F.pairs a.nodes st.metric with
    | error e => simp [hp] at hpo
    | ok ps => simp only [hp, Option.some.injEq] at hpo; rw [hpo]
  have hag := C23_pairs_agree F a.nodes st.metric _ _ e3 hps (hf.rhs a (List.mem_of_getElem? e1) F e2)
  rw [List.forall₂_iff_zip] at hag
  apply hag.2
  rw [List.zip_map_left]
  exact List.mem_map.2 ⟨t, htq, rfl⟩

theorem bounds_mem {α : Type} {P : Nat × ℚ × ℚ → Prop} {g : α → Option (Nat × ℚ × ℚ)} (l : List α) :
    ∀ bs : List (Nat × ℚ × ℚ), bs.map some = l.map g → ((∀ q ∈ bs, P q) ↔ ∀ a ∈ l, ∃ q, g a = some q ∧ P q) := by
  induction l with
  | nil => intro bs h; simp only [List.map_nil, List.map_eq_nil_iff] at h; subst h; simp
  | cons a l ih =>
    intro bs h
    cases bs with
    | nil => simp at h
    | cons q bs =>
      simp only [List.map_cons, List.cons.injEq] at h
      rw [List.forall_mem_cons, List.forall_mem_cons, ih bs h.2]
      constructor
      · rintro ⟨h1, h2⟩; exact ⟨⟨q, h.1.symm, h1⟩, h2⟩
      · rintro ⟨⟨q', h1, h1'⟩, h2⟩
        rw [← h.1] at h1
        cases h1
        exact ⟨h1', h2⟩

theorem Created.not_dyn (hc : Created M big negBig s m b N A C V) (hv : M.Valid) (hf : M.FactorsOk) {i : Nat} {r : Row}
    (hr : b.rows[i]? = some r) (hu : r.upper = none) : ¬ dynRow C i := by
  rintro ⟨q, hq, t, ht, hi⟩
  obtain ⟨_, _, h3, _, _, h6⟩ := hc.facRow hv hf hq ht
  have := h6 i hi
  rw [hr] at this
  simp only [Option.some.injEq] at this
  rw [← this, hu] at h3
  cases h3

/-- Value of the row of a pair. -/
def pairValue (net : Network) (f : Nat → ℚ) (p : Pair) : ℚ :=
  p.f0.getD 0 * setFlow (flowAt net f) p.nodes0 + p.f1.getD 0 * setFlow (flowAt net f) p.nodes1

theorem Created.edge_cols (hc : Created M big negBig s m b N A C V) (hv : M.Valid) {is : List Nat} {e : Nat}
    (he : e ∈ edgesOfSet M.net is) : ∃ c, m.col e = some c := by
  obtain ⟨i, _, he⟩ := List.mem_flatMap.1 he
  cases hn : M.net.nodes[i]? with
  | none => simp [hn] at he
  | some n =>
    simp only [hn, Option.map_some, Option.getD_some] at he
    refine hc.hasCols hv n (List.mem_of_getElem? hn) e ?_
    unfold edgesOf at he
    cases hk : n.kind with
    | link => rw [hk] at he; exact Or.inr he
    | input => rw [hk] at he; exact Or.inr he
    | output => rw [hk] at he; exact Or.inl he
    | storage => rw [hk] at he; exact List.mem_append.1 he

theorem Created.varying (hc : Created M big negBig s m b N A C V) {q : Nat × List FRow} (hq : q ∈ C) {t : FRow} (ht : t ∈ q.2)
    {i : Nat} (hi : t.2.2 = some i) : t.1.Varying := by
  have := (hc.facIs q hq t ht).2
  by_contra hcon
  unfold CPair.Varying at hcon
  push Not at hcon
  have := this.2 ⟨Option.isSome_iff_ne_none.2 hcon.1, Option.isSome_iff_ne_none.2 hcon.2⟩
  rw [hi] at this; cases this

/-- **Rows after a step.** -/
theorem rows_step (hc : Created M big negBig s m b N A C V) (hv : M.Valid) (hf : M.FactorsOk) {lp : Lp} (hi : LpInv b (dynRow C) lp)
    {st : StepState} {bsN bsA bsV : List (Nat × ℚ × ℚ)} {G : List (List Pair)} (hd : StepData M st big negBig s N bsN G bsA bsV) :
    ∃ lp1 lp2, lp.resetRowBounds.resetCoefficients.act (bsN ++ pairBounds (withRows (s.factorRows.zip G)) ++ bsA ++ bsV)
        (pairPushes M.net s.cols (withRows (s.factorRows.zip G))) = some lp1 ∧ lp1.applyUpdatedCoefficients = some lp2 ∧
      LpInv b (dynRow C) lp2 ∧ lp2.colObj = lp.colObj ∧
      ∀ x, lp2.RowsHold x ↔
        (∀ p ∈ N, (negBig ≤ nodeFlow (via m x) p.2.2 ∧ nodeFlow (via m x) p.2.2 ≤ big) ∧
          ∃ q, nodeBounds p.2.2 (M.data p.2.2.index) st = some q ∧ q.1 ≤ nodeFlow (via m x) p.2.2 ∧ nodeFlow (via m x) p.2.2 ≤ q.2) ∧
        (∀ p ∈ A, (negBig ≤ aggFlow M.net (via m x) p.2.2 ∧ aggFlow M.net (via m x) p.2.2 ≤ big) ∧
          ∃ q, aggBounds st p.2.2 = some q ∧ q.1 ≤ aggFlow M.net (via m x) p.2.2 ∧ aggFlow M.net (via m x) p.2.2 ≤ q.2) ∧
        (∀ t ∈ current C G, t.1.2.2.isSome → (negBig ≤ t.2.rhs ∧ t.2.rhs ≤ big) ∧ pairValue M.net (via m x) t.2 = t.2.rhs) ∧
        (∀ (k : Nat) (p : Nat × Row × VStore), V[k]? = some p →
          (negBig ≤ -vsUse M.net (via m x) p.2.2 ∧ -vsUse M.net (via m x) p.2.2 ≤ big) ∧
          ∃ q, vsRowBounds st negBig big k = some q ∧ q.1 ≤ -vsUse M.net (via m x) p.2.2 ∧ -vsUse M.net (via m x) p.2.2 ≤ q.2) ∧
        (∀ r ∈ b.fixedRows, r.Holds big x) := by
  obtain ⟨_, hinv, _, _, _⟩ := hc.inv hv
  obtain ⟨hT1, hT2, hT3⟩ := hc.current_mem hf hd
  have hnd := hc.ids_nodup hv hf
  rw [hT2]
  -- rows of pairs
  have hLnd : (((current C G).map (fun t => (t.2, t.1.2.2))).filterMap (·.2)).Nodup := by
    rw [← hT1, List.filterMap_map] at hnd
    rw [List.filterMap_map]
    exact hnd
  have hfilter : ∀ t ∈ current C G, ∀ i, t.1.2.2 = some i →
      (pairPushes M.net s.cols ((current C G).map (fun t => (t.2, t.1.2.2)))).filter (fun t => t.1 = i) = pairPush M.net s.cols i t.2 := by
    intro t ht i hi
    apply pairPushes_filter _ _ _ hLnd
    exact List.mem_map.2 ⟨t, ht, by rw [hi]⟩
  have hpush : ∀ (i : Nat) (p : Pair), pairPush M.net s.cols i p =
      (edgesOfSet M.net p.nodes0).map (fun e => (i, colOf m e, p.f0.getD 0))
        ++ (edgesOfSet M.net p.nodes1).map (fun e => (i, colOf m e, p.f1.getD 0)) := by
    intro i p
    unfold pairPush
    rw [nodesPush_eq, nodesPush_eq]
    simp only [hc.colEq hv]
  have hcols : ∀ (i : Nat) (c : CPair) (p : Pair), Agree c p →
      (pairPush M.net s.cols i p).map (·.2.1) = (c.edges M.net).map (colOf m) := by
    intro i c p ha
    rw [hpush, List.map_append, List.map_map, List.map_map]
    unfold CPair.edges
    rw [ha.nodes0, ha.nodes1, List.map_append]
    rfl
  have hcolOf : ∀ {is e}, e ∈ edgesOfSet M.net is → m.col e = some (colOf m e) := by
    intro is e he
    obtain ⟨c, h⟩ := hc.edge_cols hv he
    unfold colOf
    rw [h]; rfl
  have hcolP : ∀ (c : CPair) e, e ∈ c.edges M.net → m.col e = some (colOf m e) := by
    intro c e he
    rcases List.mem_append.1 he with he | he
    · exact hcolOf he
    · exact hcolOf he
  have hdyn : ∀ t ∈ current C G, ∀ i, t.1.2.2 = some i → dynRow C i := by
    intro t ht i hi
    obtain ⟨q, hq, htq, _⟩ := hT3 t ht
    exact ⟨q, hq, t.1, htq, hi⟩
  have hback : ∀ i, dynRow C i → ∃ t ∈ current C G, t.1.2.2 = some i := by
    rintro i ⟨q, hq, t, ht, hi⟩
    have : t ∈ C.flatMap (·.2) := List.mem_flatMap.2 ⟨q, hq, ht⟩
    rw [← hT1] at this
    obtain ⟨t', ht', rfl⟩ := List.mem_map.1 this
    exact ⟨t', ht', hi⟩
  have hnamed : ∀ p ∈ named N A C V, p.1 < b.rows.length := fun p hp => (List.getElem?_eq_some_iff.1 (hc.ids p hp)).1
  have hNn : ∀ p ∈ N, b.rows[p.1]? = some p.2.1 := fun p hp => hc.ids (p.1, p.2.1) (by
    unfold named; simp only [List.mem_append]; exact Or.inl (Or.inl (Or.inl (List.mem_map.2 ⟨p, hp, rfl⟩))))
  have hAn : ∀ p ∈ A, b.rows[p.1]? = some p.2.1 := fun p hp => hc.ids (p.1, p.2.1) (by
    unfold named; simp only [List.mem_append]; exact Or.inl (Or.inl (Or.inr (List.mem_map.2 ⟨p, hp, rfl⟩))))
  have hVn : ∀ p ∈ V, b.rows[p.1]? = some p.2.1 := fun p hp => hc.ids (p.1, p.2.1) (by
    unfold named; simp only [List.mem_append]; exact Or.inr (List.mem_map.2 ⟨p, hp, rfl⟩))
  have hTn : ∀ t ∈ current C G, ∀ i, t.1.2.2 = some i → b.rows[i]? = some t.1.2.1 := by
    intro t ht i hi
    obtain ⟨q, hq, htq, _⟩ := hT3 t ht
    exact (hc.facRow hv hf hq htq).2.2.2.2.2 i hi
  -- bounds, group by group
  have hA' : bsA.map some = A.map (fun p => (aggBounds st p.2.2).map (fun b => (p.1, b.1, b.2))) := by
    rw [hd.aggs, hc.aggRows, ← hc.aggList, List.zip_map', List.map_map]
    rfl
  have hV' : bsV.map some = (V.zip (List.range M.vs.length)).map
      (fun p => (vsRowBounds st negBig big p.2).map (fun b => (p.1.1, b.1, b.2))) := by
    rw [hd.vs, hc.vsRows, List.zip_map_left, List.map_map]
    rfl
  have hVlen : V.length = M.vs.length := by rw [← hc.vsList]; simp
  have hVz : ∀ (P : (Nat × Row × VStore) × Nat → Prop), (∀ a ∈ V.zip (List.range M.vs.length), P a) ↔
      ∀ (k : Nat) (p : Nat × Row × VStore), V[k]? = some p → P (p, k) := by
    intro P
    constructor
    · intro h k p hk
      have hkl : k < V.length := (List.getElem?_eq_some_iff.1 hk).1
      apply h
      apply List.mem_iff_getElem?.2
      refine ⟨k, ?_⟩
      rw [List.getElem?_zip_eq_some]
      exact ⟨hk, by rw [List.getElem?_range (by omega)]⟩
    · rintro h ⟨p, k⟩ ha
      obtain ⟨j, hj⟩ := List.mem_iff_getElem?.1 ha
      rw [List.getElem?_zip_eq_some] at hj
      have hj2 := hj.2
      have hlt : j < M.vs.length := by
        have := (List.getElem?_eq_some_iff.1 hj2).1
        simpa using this
      rw [List.getElem?_range hlt] at hj2
      simp only [Option.some.injEq] at hj2
      subst hj2
      exact h j p hj.1
  have hPB : ∀ (P : Nat × ℚ × ℚ → Prop), (∀ q ∈ pairBounds ((current C G).map (fun t => (t.2, t.1.2.2))), P q) ↔
      ∀ t ∈ current C G, ∀ i, t.1.2.2 = some i → P (i, t.2.rhs, t.2.rhs) := by
    intro P
    unfold pairBounds
    rw [List.filterMap_map]
    constructor
    · intro h t ht i hi
      apply h
      exact List.mem_filterMap.2 ⟨t, ht, by simp [hi]⟩
    · rintro h q hq
      obtain ⟨t, ht, he⟩ := List.mem_filterMap.1 hq
      simp only [Function.comp, Option.map_eq_some_iff] at he
      obtain ⟨i, hi, rfl⟩ := he
      exact h t ht i hi
  have hbs : ∀ q ∈ bsN ++ pairBounds ((current C G).map (fun t => (t.2, t.1.2.2))) ++ bsA ++ bsV, q.1 < b.rows.length := by
    simp only [List.forall_mem_append]
    refine ⟨⟨⟨?_, ?_⟩, ?_⟩, ?_⟩
    · intro q hq
      have : some q ∈ bsN.map some := List.mem_map_of_mem hq
      rw [hd.nodes] at this
      obtain ⟨p, hp, he⟩ := List.mem_map.1 this
      obtain ⟨_, _, rfl⟩ := Option.map_eq_some_iff.1 he
      exact (List.getElem?_eq_some_iff.1 (hNn p hp)).1
    · rw [hPB]
      intro t ht i hi
      exact (List.getElem?_eq_some_iff.1 (hTn t ht i hi)).1
    · intro q hq
      have : some q ∈ bsA.map some := List.mem_map_of_mem hq
      rw [hA'] at this
      obtain ⟨p, hp, he⟩ := List.mem_map.1 this
      obtain ⟨_, _, rfl⟩ := Option.map_eq_some_iff.1 he
      exact (List.getElem?_eq_some_iff.1 (hAn p hp)).1
    · intro q hq
      have : some q ∈ bsV.map some := List.mem_map_of_mem hq
      rw [hV'] at this
      obtain ⟨p, hp, he⟩ := List.mem_map.1 this
      obtain ⟨_, _, rfl⟩ := Option.map_eq_some_iff.1 he
      exact (List.getElem?_eq_some_iff.1 (hVn p.1 (List.of_mem_zip hp).1)).1
  obtain ⟨lp1, lp2, r1, r2, r3, r4, r5⟩ := lp_step hi
    (bsN ++ pairBounds ((current C G).map (fun t => (t.2, t.1.2.2))) ++ bsA ++ bsV) hbs
    (pairPushes M.net s.cols ((current C G).map (fun t => (t.2, t.1.2.2)))) (by
      intro u hu
      unfold pairPushes at hu
      obtain ⟨w, hw, hu⟩ := List.mem_flatMap.1 hu
      obtain ⟨t, ht, rfl⟩ := List.mem_map.1 hw
      simp only at hu
      cases hti : t.1.2.2 with
      | none => rw [hti] at hu; simp at hu
      | some i =>
        rw [hti] at hu
        have hu1 := pairPush_row _ _ _ _ u hu
        obtain ⟨q, hq, htq, hag⟩ := hT3 t ht
        obtain ⟨g1, _, _, _, g5, _⟩ := hc.facRow hv hf hq htq
        rw [hu1]
        refine ⟨hdyn t ht i hti, t.1.2.1, hTn t ht i hti, g1, ?_⟩
        rw [g5]
        have hm : u.2.1 ∈ (pairPush M.net s.cols i t.2).map (·.2.1) := List.mem_map_of_mem hu
        rw [hcols i _ _ hag] at hm
        obtain ⟨e, he, hee⟩ := List.mem_map.1 hm
        exact ⟨e, he, by rw [← hee]; exact hcolP _ e he⟩)
    (by
      intro i r hr hD
      obtain ⟨t, ht, hti⟩ := hback i hD
      obtain ⟨q, hq, htq, hag⟩ := hT3 t ht
      obtain ⟨a, F, e1, ha, e2, e3, e4, e5, e6, e7, e8⟩ := hc.pair hf hq htq
      obtain ⟨g1, _, _, _, g5, _⟩ := hc.facRow hv hf hq htq
      have hrr := hTn t ht i hti
      rw [hr] at hrr
      simp only [Option.some.injEq] at hrr
      rw [hfilter t ht i hti, hcols i _ _ hag, hrr]
      refine ⟨g1, ?_, ?_⟩
      · have hap := hf.apart a ha _ e4 (hc.varying hq htq hti)
        rw [List.Nodup, List.pairwise_map]
        apply List.Pairwise.imp_of_mem _ hap
        intro e e' he he' hne heq
        apply hne
        have h1 := hcolP _ e he
        have h2 := hcolP _ e' he'
        rw [← heq] at h2
        exact hinv.chain e e' _ h1 h2
      · intro c hcm
        obtain ⟨e, he, hce⟩ := (g5 c).1 hcm
        have := hcolP _ e he
        rw [hce] at this
        simp only [Option.some.injEq] at this
        rw [this]
        exact List.mem_map_of_mem he)
  refine ⟨lp1, lp2, r1, r2, r3, r4, fun x => ?_⟩
  classical
  have hr5 := r5 (fun i x => if dynRow C i then
      value (((pairPushes M.net s.cols ((current C G).map (fun t => (t.2, t.1.2.2)))).filter (fun t => t.1 = i)).map (·.2)) x
    else value (((b.rows[i]?).map (·.columns)).getD []) x)
    (fun i r hr hD x => by rw [if_neg hD, hr]; rfl)
    (fun i r hr hD x => by rw [if_pos hD]) x
  rw [hr5, hc.f64Max, hc.f64NegMax]
  set val : Nat → ℚ := fun i => (if dynRow C i then
      value (((pairPushes M.net s.cols ((current C G).map (fun t => (t.2, t.1.2.2)))).filter (fun t => t.1 = i)).map (·.2)) x
    else value (((b.rows[i]?).map (·.columns)).getD []) x) with hval
  have vN : ∀ p ∈ N, val p.1 = nodeFlow (via m x) p.2.2 := by
    intro p hp
    rw [hval]; simp only
    rw [if_neg (hc.not_dyn hv hf (hNn p hp) (hc.nodeIs p hp).upper), hNn p hp]
    exact (hc.nodeIs p hp).value x
  have vA : ∀ p ∈ A, val p.1 = aggFlow M.net (via m x) p.2.2 := by
    intro p hp
    rw [hval]; simp only
    rw [if_neg (hc.not_dyn hv hf (hAn p hp) (hc.aggIs p hp).upper), hAn p hp]
    exact (hc.aggIs p hp).value x
  have vV : ∀ p ∈ V, val p.1 = -vsUse M.net (via m x) p.2.2 := by
    intro p hp
    rw [hval]; simp only
    rw [if_neg (hc.not_dyn hv hf (hVn p hp) (hc.vsIs p hp).upper), hVn p hp]
    exact (hc.vsIs p hp).value x
  have vT : ∀ t ∈ current C G, ∀ i, t.1.2.2 = some i → val i = pairValue M.net (via m x) t.2 := by
    intro t ht i hti
    rw [hval]; simp only
    rw [if_pos (hdyn t ht i hti), hfilter t ht i hti]
    obtain ⟨q, hq, htq, hag⟩ := hT3 t ht
    obtain ⟨a, F, e1, ha, e2, e3, e4, e5, e6, e7, e8⟩ := hc.pair hf hq htq
    rw [value_pairPush _ _ _ _ _ (by
      rw [← hag.nodes0, ← hag.nodes1]
      exact hf.storage a ha _ e4 (hc.varying hq htq hti))]
    have : (fun e => x (s.cols.getD e 0)) = via m x := by funext e; rw [hc.colEq hv]
    rw [this]
    rfl
  have hlimits : (∀ i < b.rows.length, negBig ≤ val i ∧ val i ≤ big) ↔
      (∀ p ∈ N, negBig ≤ nodeFlow (via m x) p.2.2 ∧ nodeFlow (via m x) p.2.2 ≤ big) ∧
      (∀ p ∈ A, negBig ≤ aggFlow M.net (via m x) p.2.2 ∧ aggFlow M.net (via m x) p.2.2 ≤ big) ∧
      (∀ t ∈ current C G, t.1.2.2.isSome → negBig ≤ pairValue M.net (via m x) t.2 ∧ pairValue M.net (via m x) t.2 ≤ big) ∧
      (∀ p ∈ V, negBig ≤ -vsUse M.net (via m x) p.2.2 ∧ -vsUse M.net (via m x) p.2.2 ≤ big) := by
    constructor
    · intro h
      refine ⟨fun p hp => ?_, fun p hp => ?_, fun t ht hts => ?_, fun p hp => ?_⟩
      · rw [← vN p hp]; exact h _ (List.getElem?_eq_some_iff.1 (hNn p hp)).1
      · rw [← vA p hp]; exact h _ (List.getElem?_eq_some_iff.1 (hAn p hp)).1
      · obtain ⟨i, hi⟩ := Option.isSome_iff_exists.1 hts
        rw [← vT t ht i hi]; exact h _ (List.getElem?_eq_some_iff.1 (hTn t ht i hi)).1
      · rw [← vV p hp]; exact h _ (List.getElem?_eq_some_iff.1 (hVn p hp)).1
    · rintro ⟨k1, k2, k3, k4⟩ i hi
      obtain ⟨p, hp, rfl⟩ := hc.cover i hi
      unfold named at hp
      simp only [List.mem_append, or_assoc] at hp
      rcases hp with hp | hp | hp | hp
      · obtain ⟨p, hp', rfl⟩ := List.mem_map.1 hp; rw [vN p hp']; exact k1 p hp'
      · obtain ⟨p, hp', rfl⟩ := List.mem_map.1 hp; rw [vA p hp']; exact k2 p hp'
      · unfold variableOf at hp
        rw [← hT1, List.filterMap_map] at hp
        obtain ⟨t, ht, he⟩ := List.mem_filterMap.1 hp
        simp only [Function.comp, Option.map_eq_some_iff] at he
        obtain ⟨j, hj, rfl⟩ := he
        simp only
        rw [vT t ht j hj]
        exact k3 t ht (by rw [hj]; rfl)
      · obtain ⟨p, hp', rfl⟩ := List.mem_map.1 hp; rw [vV p hp']; exact k4 p hp'
  have hbounds : (∀ q ∈ bsN ++ pairBounds ((current C G).map (fun t => (t.2, t.1.2.2))) ++ bsA ++ bsV, q.2.1 ≤ val q.1 ∧ val q.1 ≤ q.2.2) ↔
      (∀ p ∈ N, ∃ q, nodeBounds p.2.2 (M.data p.2.2.index) st = some q ∧ q.1 ≤ nodeFlow (via m x) p.2.2 ∧ nodeFlow (via m x) p.2.2 ≤ q.2) ∧
      (∀ t ∈ current C G, t.1.2.2.isSome → pairValue M.net (via m x) t.2 = t.2.rhs) ∧
      (∀ p ∈ A, ∃ q, aggBounds st p.2.2 = some q ∧ q.1 ≤ aggFlow M.net (via m x) p.2.2 ∧ aggFlow M.net (via m x) p.2.2 ≤ q.2) ∧
      (∀ (k : Nat) (p : Nat × Row × VStore), V[k]? = some p →
          ∃ q, vsRowBounds st negBig big k = some q ∧ q.1 ≤ -vsUse M.net (via m x) p.2.2 ∧ -vsUse M.net (via m x) p.2.2 ≤ q.2) := by
    simp only [List.forall_mem_append, and_assoc]
    rw [hPB (fun q => q.2.1 ≤ val q.1 ∧ val q.1 ≤ q.2.2), bounds_mem (P := fun q => q.2.1 ≤ val q.1 ∧ val q.1 ≤ q.2.2) N bsN hd.nodes,
      bounds_mem (P := fun q => q.2.1 ≤ val q.1 ∧ val q.1 ≤ q.2.2) A bsA hA',
      bounds_mem (P := fun q => q.2.1 ≤ val q.1 ∧ val q.1 ≤ q.2.2) _ bsV hV', hVz]
    have hsplit : ∀ (o : Option (ℚ × ℚ)) (i : Nat) (v : ℚ), val i = v →
        ((∃ q, o.map (fun b => (i, b.1, b.2)) = some q ∧ q.2.1 ≤ val q.1 ∧ val q.1 ≤ q.2.2) ↔
          ∃ q, o = some q ∧ q.1 ≤ v ∧ v ≤ q.2) := by
      intro o i v hv
      constructor
      · rintro ⟨q, h1, h2⟩
        obtain ⟨q', rfl, rfl⟩ := Option.map_eq_some_iff.1 h1
        rw [hv] at h2
        exact ⟨q', rfl, h2⟩
      · rintro ⟨q, rfl, h2⟩
        exact ⟨_, rfl, by rw [hv]; exact h2⟩
    refine and_congr ?_ (and_congr ?_ (and_congr ?_ ?_))
    · exact forall₂_congr (fun p hp => hsplit _ _ _ (vN p hp))
    · constructor
      · intro h t ht hts
        obtain ⟨i, hi⟩ := Option.isSome_iff_exists.1 hts
        have := h t ht i hi
        simp only [vT t ht i hi] at this
        exact le_antisymm this.2 this.1
      · intro h t ht i hi
        simp only [vT t ht i hi]
        rw [h t ht (by rw [hi]; rfl)]
        exact ⟨le_refl _, le_refl _⟩
    · exact forall₂_congr (fun p hp => hsplit _ _ _ (vA p hp))
    · exact forall₃_congr (fun k p hk => hsplit _ _ _ (vV p (List.mem_of_getElem? hk)))
  have hcomb : (∀ i < b.rows.length, (negBig ≤ val i ∧ val i ≤ big) ∧ ∀ l u,
      (i, l, u) ∈ bsN ++ pairBounds ((current C G).map (fun t => (t.2, t.1.2.2))) ++ bsA ++ bsV → l ≤ val i ∧ val i ≤ u) ↔
      (∀ i < b.rows.length, negBig ≤ val i ∧ val i ≤ big) ∧
      (∀ q ∈ bsN ++ pairBounds ((current C G).map (fun t => (t.2, t.1.2.2))) ++ bsA ++ bsV, q.2.1 ≤ val q.1 ∧ val q.1 ≤ q.2.2) := by
    constructor
    · intro h
      exact ⟨fun i hi => (h i hi).1, fun q hq => (h q.1 (hbs q hq)).2 q.2.1 q.2.2 hq⟩
    · rintro ⟨h1, h2⟩ i hi
      exact ⟨h1 i hi, fun l u hm => h2 (i, l, u) hm⟩
  rw [hcomb, hlimits, hbounds]
  constructor
  · rintro ⟨⟨⟨l1, l2, l3, l4⟩, k1, k2, k3, k4⟩, kf⟩
    refine ⟨fun p hp => ⟨l1 p hp, k1 p hp⟩, fun p hp => ⟨l2 p hp, k3 p hp⟩, fun t ht hts => ⟨?_, k2 t ht hts⟩,
      fun k p hk => ⟨l4 p (List.mem_of_getElem? hk), k4 k p hk⟩, kf⟩
    have := l3 t ht hts
    rwa [k2 t ht hts] at this
  · rintro ⟨h1, h2, h3, h4, kf⟩
    refine ⟨⟨⟨fun p hp => (h1 p hp).1, fun p hp => (h2 p hp).1, fun t ht hts => ?_, fun p hp => ?_⟩,
      fun p hp => (h1 p hp).2, fun t ht hts => (h3 t ht hts).2, fun p hp => (h2 p hp).2, fun k p hk => (h4 k p hk).2⟩, kf⟩
    · rw [(h3 t ht hts).2]; exact (h3 t ht hts).1
    · obtain ⟨k, hk⟩ := List.mem_iff_getElem?.1 hp
      exact (h4 k p hk).1

end

end Verif.Solver
