import Verif.Lemmas.IpmLpMain

/-!
# C77: the program of the interior point solver

The specification is in `Spec/IpmLp.lean`; cases are in `Props/IpmLpCases.lean`.
-/

namespace Verif.IpmLp

open Verif.State (NodeKind Edge)
open Verif.Topology (Network TNode)
open Verif.Solver

/-- **C77 (setup).** A program is made for every network with an edge, and its index lists are in order. -/
theorem C77_create (M : Model) (hv : M.Valid) :
    ((∃ s, create M = .ok s) ↔ M.net.edges ≠ []) ∧ (M.net.edges = [] → create M = .error .noEdgesDefined) := by
  have h0 : M.net.edges = [] → create M = .error .noEdgesDefined := by
    intro h; unfold create; rw [(C16_no_edges M.net).1 h]
  refine ⟨⟨?_, ?_⟩, h0⟩
  · rintro ⟨s, hs⟩ he
    rw [h0 he] at hs; cases hs
  · intro hne
    obtain ⟨s, _, _, _, h, _⟩ := create_ok M hv hne
    exact ⟨s, h⟩

/-- **C77 (matrix).** The matrix handed to the solver passes its checks, whatever was updated before. It has an empty row, which
the factorisation cannot treat, exactly if some storage has no edge. -/
theorem C77_matrix (M : Model) (hv : M.Valid) (s : Built) (hs : Reach M s) : s.lp.csr.check = true ∧
    (s.lp.csr.NoEmptyRow ↔ ∀ n ∈ M.net.nodes, n.incoming ≠ [] ∨ n.outgoing ≠ []) := by
  obtain ⟨m, I, E, hc⟩ := reach_created hv hs
  rw [hc.csr]
  refine ⟨check_csrOf _ _ (hc.keys hv) (hc.sorted hv), ?_⟩
  have hconn : ∀ n ∈ M.net.nodes, Verif.Topology.Connected n.kind n.incoming n.outgoing := by
    intro n hn
    obtain ⟨k, hk⟩ := List.mem_iff_getElem?.1 hn
    obtain ⟨tb, htb⟩ := hv.built
    have hvalid := (Verif.Topology.C49_build_iff tb).1 ⟨_, htb⟩
    obtain ⟨hl, _, hnodes, _⟩ := Verif.Topology.C49_topology tb _ htb
    have hk' : k < tb.nodes.length := by rw [← hl]; exact (List.getElem?_eq_some_iff.1 hk).1
    have h1 := hnodes k _ (List.getElem?_eq_getElem hk')
    rw [hk] at h1
    simp only [Option.some.injEq] at h1
    rw [h1]
    exact hvalid.connected _ (List.getElem_mem hk')
  have hedge : ∀ n ∈ M.net.nodes, n.kind ≠ .storage → edgesOf n ≠ [] ∧ (n.incoming ≠ [] ∨ n.outgoing ≠ []) := by
    intro n hn hk
    have := hconn n hn
    unfold edgesOf
    cases hkk : n.kind <;> simp_all [Verif.Topology.Connected]
  have hst : ∀ n, n.kind = .storage → (edgesOf n ≠ [] ↔ n.incoming ≠ [] ∨ n.outgoing ≠ []) := by
    intro n hk
    unfold edgesOf
    rw [hk]
    simp only [ne_eq, List.append_eq_nil_iff]
    tauto
  rw [noEmptyRow_csrOf, List.forall_mem_append]
  constructor
  · rintro ⟨h, -⟩ n hn
    by_cases hk : n.kind = .storage
    · obtain ⟨r, h1, _, _, _, h2⟩ := hc.row hv hn
      have := ((hc.asks _).1 h n hn (Or.inl hk) r h1).1
      rw [← hst n hk]
      exact fun h0 => this (h2.2 h0)
    · exact (hedge n hn hk).2
  · intro h
    refine ⟨(hc.asks _).2 fun n hn _ r hr => ?_, fun r hr => (hc.massKeys r hr).1⟩
    obtain ⟨r', h1, _, _, _, h2⟩ := hc.row hv hn
    rw [hr] at h1; cases h1
    have hne : r.columns ≠ [] := by
      intro h0
      have h0 := h2.1 h0
      by_cases hk : n.kind = .storage
      · exact (hst n hk).2 (h n hn) h0
      · exact (hedge n hn hk).1 h0
    refine ⟨hne, fun _ => ?_⟩
    intro h0
    exact hne (List.map_eq_nil_iff.1 h0)

/-- **C77 (update).** An update for one to four scenarios succeeds if and only if everything asked for is there. -/
theorem C77_update (M : Model) (hv : M.Valid) (s : Built) (hs : Reach M s) (states : List StepState) (h0 : states ≠ [])
    (h4 : states.length ≤ 4) : (∃ s', update M states s = some s') ↔ ∀ st ∈ states, Given M st := by
  obtain ⟨m, I, E, hc⟩ := reach_created hv hs
  have hlim : ∀ st, (∀ n ∈ M.net.nodes, HasLimit M st n) ↔
      (∀ n ∈ M.net.nodes, n.kind ≠ .storage → (M.data n.index).maxFlow ≠ none →
        (∃ v, ValueIs st.metric (M.data n.index).minFlow 0 v) ∧ (∃ v, ValueIs st.metric (M.data n.index).maxFlow f64MAX v)) ∧
      (∀ n ∈ M.net.nodes, n.kind = .storage → (∃ v, st.volume n.index = some v) ∧
        (∃ v, ValueIs st.metric (M.data n.index).minVolume 0 v) ∧ (∃ v, ValueIs st.metric (M.data n.index).maxVolume f64MAX v)) := by
    intro st
    rw [← forall₂_and]
    apply forall_congr'; intro n
    apply forall_congr'; intro _
    unfold HasLimit
    simp only [← valueOr_isSome, ← Option.isSome_iff_exists]
    by_cases hk : n.kind = .storage
    · rw [if_pos hk]
      simp only [hk, ne_eq, not_true_eq_false, false_implies, true_and, forall_const]
      unfold volumeLimits
      cases st.volume n.index <;> cases valueOr 0 st.metric (M.data n.index).minVolume <;>
        cases valueOr f64MAX st.metric (M.data n.index).maxVolume <;> simp
    · rw [if_neg hk]
      simp only [hk, ne_eq, not_false_eq_true, forall_const, false_implies, and_true]
      unfold flowLimit
      apply imp_congr_right; intro _
      cases valueOr 0 st.metric (M.data n.index).minFlow <;> cases valueOr f64MAX st.metric (M.data n.index).maxFlow <;> simp
  constructor
  · rintro ⟨s', h⟩ st hst
    obtain ⟨j, hj⟩ := List.mem_iff_getElem?.1 hst
    have hjl := (List.getElem?_eq_some_iff.1 hj).1
    have hlane : laneState states ⟨j, by omega⟩ = some st := by
      unfold laneState
      rw [show min j (states.length - 1) = j by omega]
      exact hj
    obtain ⟨_, _, a1, _, a2⟩ := update_ok hc h
    obtain ⟨b1, b2⟩ := (hlim st).1 (a1 _ st hlane)
    refine ⟨(edgeCosts_iff hv st.metric).1 ?_, b1, b2⟩
    obtain ⟨cs, c1, _⟩ := a2 _ st hlane
    intro e he
    have : edgeCost M st.metric e ∈ cs.map some := by rw [← c1]; exact List.mem_map_of_mem he
    obtain ⟨v, _, hv'⟩ := List.mem_map.1 this
    rw [← hv']; rfl
  · intro h
    obtain ⟨hne, hinv, hall, cols, hb, hlen, hget⟩ := cols_of M hv hc.colMap
    rw [hc.cols] at hb; cases hb
    obtain ⟨lp1, h1⟩ := objLoop_some M states h0 h4 s.cols M.net.edges s.lp.zeroObj (by
      intro e he
      obtain ⟨k, hk⟩ := List.mem_iff_getElem?.1 he
      have hidx := ((Solver.Created.wf hv).index k e hk).1
      have hkl := (List.getElem?_eq_some_iff.1 hk).1
      obtain ⟨c, hcc⟩ := hall e.index (by omega)
      refine ⟨c, by rw [hget _ (by omega)]; exact hcc, ?_⟩
      simp only [Lp.zeroObj, List.length_map, hc.objLen]
      exact hc.colBound hv hcc) (fun st hst => (edgeCosts_iff hv st.metric).2 (h st hst).costs)
    obtain ⟨obj, rfl, _, _⟩ := objLoop_ok M states s.cols m.colToEdges.length M.net.edges _ lp1 (by simp [Lp.zeroObj, hc.objLen]) h1
    obtain ⟨lp2, h2⟩ := boundsLoop_some M m I states h0 h4 M.net.nodes s.rowIds (Lp.resetBounds { s.lp.zeroObj with colObj := obj })
      hc.named (by
        simp only [Lp.resetBounds, Lp.zeroObj, List.length_append, List.length_map, List.length_take, List.length_drop, hc.upLen]
        omega)
      (fun st hst => (hlim st).2 ⟨(h st hst).flows, (h st hst).volumes⟩)
    exact ⟨{ s with lp := lp2 }, by unfold update; simp only [h1, h2]⟩

/-- **C77 (constraints).** After an update, the program of a lane allows exactly the flows within the limits of the state of the
lane, all limits being cut off at 999999. Nothing of earlier updates is left. -/
theorem C77_program (M : Model) (hv : M.Valid) (s s' : Built) (hs : Reach M s) (states : List StepState)
    (h : update M states s = some s') (k : Fin 4) (st : StepState) (hst : laneState states k = some st) (hd : 0 < st.days)
    (x : Nat → ℚ) : s'.Allows k x ↔ Within M 999999 st (s'.edgeFlow x) := by
  obtain ⟨m, I, E, hc0⟩ := reach_created hv hs
  obtain ⟨hc, _, hlim, hbelow, _⟩ := update_ok hc0 h
  rw [hc.allows hv, hc.flow hv, hbelow k st hst, hc.below hv]
  have hcap := fun n hn => cap_iff (M := M) hd (via m x) n 999999 rfl (hlim k st hst n hn)
  constructor
  · rintro ⟨a, ⟨b, c⟩, d⟩
    refine ⟨a, d, fun n hn => ((hcap n hn).1 ⟨c n hn, b n hn⟩).1, fun n hn => ((hcap n hn).1 ⟨c n hn, b n hn⟩).2⟩
  · rintro ⟨a, b, c, d⟩
    exact ⟨a, ⟨fun n hn => ((hcap n hn).2 ⟨c n hn, d n hn⟩).2, fun n hn => ((hcap n hn).2 ⟨c n hn, d n hn⟩).1⟩, b⟩

/-- Flows that agree on the edges of the network lie within the same limits. -/
theorem within_agree {M : Model} (hv : M.Valid) {f g : Nat → ℚ} (h : ∀ e < M.net.edges.length, f e = g e) {big : ℚ} {st : StepState}
    (hf : Within M big st f) : Within M big st g := by
  refine ⟨fun e he => by rw [← h e he]; exact hf.nonneg e he, ?_, ?_, ?_⟩
  · intro n hn hk
    have hb := hf.balanced n hn hk
    have h1 : n.incoming.map f = n.incoming.map g :=
      List.map_congr_left (fun e he => h e (edges_in_range (Solver.Created.wf hv) n hn e (Or.inl he)))
    have h2 : n.outgoing.map f = n.outgoing.map g :=
      List.map_congr_left (fun e he => h e (edges_in_range (Solver.Created.wf hv) n hn e (Or.inr he)))
    rw [← h1, ← h2]; exact hb
  · intro n hn; rw [← nodeFlow_agree hv h n hn]; exact hf.flows n hn
  · intro n hn; rw [← nodeFlow_agree hv h n hn]; exact hf.volumes n hn

/-- **C77 (all flows).** Every flow within the limits is a solution of the program. -/
theorem C77_represented (M : Model) (hv : M.Valid) (s s' : Built) (hs : Reach M s) (states : List StepState)
    (h : update M states s = some s') (k : Fin 4) (st : StepState) (hst : laneState states k = some st) (hd : 0 < st.days)
    (f : Nat → ℚ) (hf : Within M 999999 st f) : ∃ x, s'.Allows k x ∧ ∀ e < M.net.edges.length, s'.edgeFlow x e = f e := by
  obtain ⟨m, I, E, hc0⟩ := reach_created hv hs
  obtain ⟨hc, _⟩ := update_ok hc0 h
  obtain ⟨b, hb⟩ := hv.built
  obtain ⟨x, hx, _⟩ := C17_representable b M.net hb m hc.colMap f hf.balanced
  have he : ∀ e < M.net.edges.length, s'.edgeFlow x e = f e := fun e he => by rw [hc.flow hv]; exact hx e he
  exact ⟨x, (C77_program M hv s s' hs states h k st hst hd x).2 (within_agree hv (fun e h => (he e h).symm) hf), he⟩

/-- **C77 (objective).** For flows that balance, the objective of a lane is minus their total cost. -/
theorem C77_objective (M : Model) (hv : M.Valid) (s s' : Built) (hs : Reach M s) (states : List StepState)
    (h : update M states s = some s') (k : Fin 4) (st : StepState) (hst : laneState states k = some st) (cost : TNode → ℚ)
    (hcost : ∀ n ∈ M.net.nodes, n.incoming ≠ [] ∨ n.outgoing ≠ [] → CostIs M st.metric n (cost n)) (x : Nat → ℚ)
    (hb : Balanced M.net (s'.edgeFlow x)) : s'.gain k x = -totalCost M cost (s'.edgeFlow x) := by
  obtain ⟨m, I, E, hc0⟩ := reach_created hv hs
  obtain ⟨hc, _, _, _, hobj⟩ := update_ok hc0 h
  obtain ⟨cs, h1, h2⟩ := hobj k st hst
  rw [← edgeCosts_total M hv st.metric cost hcost _ hb cs h1, ← h2]
  unfold Built.gain Ipm.objective gainOf Built.lane
  rw [hc.csr]
  rfl

/-- **C77 (optimum).** A solution with the largest objective is a flow of least total cost among those within the limits. -/
theorem C77_optimal (M : Model) (hv : M.Valid) (s s' : Built) (hs : Reach M s) (states : List StepState)
    (h : update M states s = some s') (k : Fin 4) (st : StepState) (hst : laneState states k = some st) (hd : 0 < st.days)
    (cost : TNode → ℚ) (hcost : ∀ n ∈ M.net.nodes, n.incoming ≠ [] ∨ n.outgoing ≠ [] → CostIs M st.metric n (cost n))
    (x : Nat → ℚ) (hx : s'.Allows k x) (hbest : ∀ y, s'.Allows k y → s'.gain k y ≤ s'.gain k x) :
    Within M 999999 st (s'.edgeFlow x) ∧
      ∀ f, Within M 999999 st f → totalCost M cost (s'.edgeFlow x) ≤ totalCost M cost f := by
  have hw := (C77_program M hv s s' hs states h k st hst hd x).1 hx
  refine ⟨hw, fun f hf => ?_⟩
  obtain ⟨y, hy, he⟩ := C77_represented M hv s s' hs states h k st hst hd f hf
  have hwy := (C77_program M hv s s' hs states h k st hst hd y).1 hy
  have := hbest y hy
  rw [C77_objective M hv s s' hs states h k st hst cost hcost x hw.balanced,
    C77_objective M hv s s' hs states h k st hst cost hcost y hwy.balanced, totalCost_agree hv he] at this
  linarith

theorem large_f64MAX : (999999 : ℚ) ≤ f64MAX := by
  unfold f64MAX
  have h1 : (1 : ℚ) ≤ 2 ^ 971 := one_le_pow₀ (by norm_num)
  have h2 : ((2 : ℚ) ^ 53 - 1) = 9007199254740991 := by norm_num
  rw [h2]
  exact le_trans (by norm_num) (mul_le_mul_of_nonneg_left h1 (by norm_num))

/-- **C77 (same problem).** Without minimum flows, aggregated nodes and virtual storages, and for flows below 999999 at every node,
the limits are those of the allocation problem the other solvers are given (C56). -/
theorem C77_allowed (M : Model) (ho : OnlyMaxima M) (hv : M.Valid) (st : StepState) (f : Nat → ℚ)
    (hsmall : ∀ n ∈ M.net.nodes, -999999 ≤ nodeFlow f n ∧ nodeFlow f n ≤ 999999) :
    Within M 999999 st f ↔ Allowed M st f := by
  have hpos : (∀ e < M.net.edges.length, 0 ≤ f e) → ∀ n ∈ M.net.nodes, n.kind ≠ .storage → 0 ≤ nodeFlow f n := by
    intro h n hn hk
    have h1 : ∀ e, e ∈ n.incoming ∨ e ∈ n.outgoing → 0 ≤ f e := fun e he => h e (edges_in_range (Solver.Created.wf hv) n hn e he)
    have hin : 0 ≤ (n.incoming.map f).sum := List.sum_nonneg (by
      intro v hv; obtain ⟨e, he, rfl⟩ := List.mem_map.1 hv; exact h1 e (Or.inl he))
    have hout : 0 ≤ (n.outgoing.map f).sum := List.sum_nonneg (by
      intro v hv; obtain ⟨e, he, rfl⟩ := List.mem_map.1 hv; exact h1 e (Or.inr he))
    unfold nodeFlow
    cases hkk : n.kind <;> simp_all
  have hmax := large_f64MAX
  constructor
  · intro h
    refine ⟨h.nonneg, h.balanced, ?_, by simp [ho.aggs], by simp [ho.aggs], by simp [ho.vs]⟩
    intro n hn
    unfold NodeOk
    by_cases hk : n.kind = .storage
    · rw [if_pos hk]
      exact (h.volumes n hn hk).2.2
    · rw [if_neg hk, ho.minFlow n hn hk]
      refine ⟨hpos h.nonneg n hn hk, ?_⟩
      cases hq : (M.data n.index).maxFlow with
      | none => exact le_trans (hsmall n hn).2 hmax
      | some q =>
        obtain ⟨_, u, h1, h2⟩ := h.flows n hn hk q hq
        exact ⟨u, h1, h2⟩
  · intro h
    refine ⟨h.nonneg, h.balanced, ?_, ?_⟩
    · intro n hn hk q hq
      have := h.nodes n hn
      unfold NodeOk at this
      rw [if_neg hk, hq] at this
      obtain ⟨u, h1, h2⟩ := this.2
      exact ⟨(hsmall n hn).2, u, h1, h2⟩
    · intro n hn hk
      have := h.nodes n hn
      unfold NodeOk at this
      rw [if_pos hk] at this
      exact ⟨(hsmall n hn).1, (hsmall n hn).2, this⟩

/-- **C77 (who solves what).** The interior point solver takes networks without aggregated nodes and virtual storages, Clp those
without exclusivity, Cbc those with constant factors, and HiGHS all. Minimum flows are never asked about. -/
theorem C77_features (M : Model) :
    (accepted ipmFeatures M = true ↔ M.aggs = [] ∧ M.vs = []) ∧
    (accepted clpFeatures M = true ↔ M.NoExclusivity) ∧
    (accepted cbcFeatures M = true ↔ ConstantFactors M) ∧
    accepted highsFeatures M = true := by
  have hsplit : ∀ (F : List Feature), accepted F M = true ↔
      (M.aggs ≠ [] → .aggregatedNode ∈ F) ∧ ((∃ a ∈ M.aggs, a.factors.isSome = true) → .aggregatedNodeFactors ∈ F) ∧
      ((∃ a ∈ M.aggs, dynamicFactors a = true) → .aggregatedNodeDynamicFactors ∈ F) ∧
      ((∃ a ∈ M.aggs, a.exclusivity.isSome = true) → .mutualExclusivity ∈ F) ∧ (M.vs ≠ [] → .virtualStorage ∈ F) := by
    intro F
    have e1 : ∀ (c : Bool) (x : Feature), ((if c = true then [] else [x]).all (F.contains ·) = true ↔ (c ≠ true → x ∈ F)) := by
      intro c x; cases c <;> simp
    have e2 : ∀ (c : Bool) (x : Feature), ((if c = true then [x] else []).all (F.contains ·) = true ↔ (c = true → x ∈ F)) := by
      intro c x; cases c <;> simp
    unfold accepted requiredFeatures
    simp only [List.all_append, Bool.and_eq_true]
    rw [e1, e1, e2, e2, e2]
    simp only [List.any_eq_true, List.isEmpty_iff, ne_eq, and_assoc]
  simp only [hsplit]
  refine ⟨?_, ?_, ?_, ?_⟩
  · simp only [ipmFeatures, List.not_mem_nil, imp_false, not_not]
    constructor
    · rintro ⟨a, _, _, _, b⟩; exact ⟨a, b⟩
    · rintro ⟨a, b⟩; simp [a, b]
  · unfold Model.NoExclusivity
    simp [clpFeatures]
  · unfold ConstantFactors
    have : ∀ a : AggNode, dynamicFactors a = true ↔ ¬ ∀ F, a.relationship = some (.factored F) → ∀ q ∈ metricsOf F, ∃ v, q = .const v := by
      have hq : ∀ q : Metric, q.const?.isSome = true ↔ ∃ v, q = .const v := by
        intro q; cases q <;> simp [Metric.const?]
      have hall : ∀ fs : List Metric, (fs.all (·.const?.isSome)) = true ↔ ∀ q ∈ fs, ∃ v, q = .const v := by
        intro fs; simp only [List.all_eq_true, hq]
      have hF : ∀ F, isConstant F = true ↔ ∀ q ∈ metricsOf F, ∃ v, q = .const v := by
        intro F
        cases F with
        | proportion fs => exact hall fs
        | ratio fs => exact hall fs
        | coefficients fs rhs =>
          cases rhs with
          | none => simp only [isConstant, Bool.and_true, hall, metricsOf, Option.toList, List.append_nil]
          | some r =>
            simp only [isConstant, Bool.and_eq_true, hall, hq, metricsOf, Option.toList, List.forall_mem_append,
              List.forall_mem_singleton]
      intro a
      unfold dynamicFactors AggNode.factors
      cases a.relationship with
      | none => simp
      | some r =>
        cases r with
        | factored F =>
          simp only [Bool.not_eq_true', Bool.eq_false_iff, ne_eq, hF, Option.some.injEq, Relationship.factored.injEq, forall_eq']
        | exclusive a b => simp
    simp only [this]
    simp [cbcFeatures]
  · simp [highsFeatures]

end Verif.IpmLp
