import Verif.Lemmas.BackendsTrack
import Verif.Lemmas.ChoiceTwin
import Verif.Props.IpmLp

/-! # Which coefficients change from step to step -/

namespace Verif.Backends

open Verif.Solver
open Verif.State (NodeKind Edge)
open Verif.Topology (Network TNode)

/-! ## Row ids made at creation -/

theorem binaryRows_const (m : ColMap) (n : TNode) (q : ℚ × ℚ) (cs : List Nat) : ∀ b ids b' ids',
    binaryRows m n (some q) cs b ids = some (b', ids') → ids' = ids := by
  induction cs with
  | nil =>
    intro b ids b' ids' h
    simp only [binaryRows, Option.some.injEq, Prod.mk.injEq] at h
    exact h.2.symm
  | cons c cs ih =>
    intro b ids b' ids' h
    obtain ⟨lo, hi⟩ := q
    simp only [binaryRows] at h
    cases h1 : addNode m n (-1) Row.default with
    | none => simp [h1] at h
    | some ub =>
      cases h2 : addNode m n 1 Row.default with
      | none => simp [h1, h2] at h
      | some lb =>
        simp only [h1, h2] at h
        exact ih _ _ _ _ h

theorem createNodeRows_types (m : ColMap) (data : Nat → NodeData) (bins : List (Nat × List Nat)) (ns : List TNode)
    (hc : ∀ n ∈ ns, Verif.Topology.lookup n.index bins ≠ none → (constBounds n (data n.index)).isSome) : ∀ b ids b' ids',
    createNodeRows m data bins ns b ids = some (b', ids') → ∀ r ∈ ids', r ∈ ids ∨ r.type = .continuous := by
  induction ns with
  | nil =>
    intro b ids b' ids' h
    simp only [createNodeRows, Option.some.injEq, Prod.mk.injEq] at h
    obtain ⟨rfl, rfl⟩ := h
    exact fun r h => Or.inl h
  | cons n ns ih =>
    rw [List.forall_mem_cons] at hc
    intro b ids b' ids' h
    simp only [createNodeRows] at h
    cases hl : Verif.Topology.lookup n.index bins with
    | some cols =>
      simp only [hl] at h
      obtain ⟨q, hq⟩ := Option.isSome_iff_exists.1 (hc.1 (by rw [hl]; simp))
      rw [hq] at h
      cases h1 : binaryRows m n (some q) cols b ids with
      | none => simp [h1] at h
      | some t =>
        obtain ⟨b1, ids1⟩ := t
        simp only [h1] at h
        have := binaryRows_const _ _ _ _ _ _ _ _ h1
        subst this
        exact ih hc.2 _ _ _ _ h
    | none =>
      simp only [hl] at h
      cases h1 : addNode m n 1 Row.default with
      | none => simp [h1] at h
      | some r =>
        simp only [h1] at h
        cases hb : constBounds n (data n.index) with
        | some q =>
          obtain ⟨lo, hi⟩ := q
          simp only [hb] at h
          exact ih hc.2 _ _ _ _ h
        | none =>
          simp only [hb] at h
          intro t ht
          rcases ih hc.2 _ _ _ _ h t ht with ht | ht
          · simp only [List.mem_append, List.mem_singleton] at ht
            rcases ht with ht | rfl
            · exact Or.inl ht
            · exact Or.inr rfl
          · exact Or.inr ht

theorem constValues_some (fs : List Metric) (hf : ∀ q ∈ fs, ∃ v, q = .const v) : ∀ vs, constValues fs = .ok vs → ∀ o ∈ vs, o.isSome := by
  induction fs with
  | nil => intro vs h; simp only [constValues, Except.ok.injEq] at h; subst h; simp
  | cons f fs ih =>
    rw [List.forall_mem_cons] at hf
    obtain ⟨⟨v, rfl⟩, hf⟩ := hf
    intro vs h
    simp only [constValues, Metric.const?] at h
    split_ifs at h
    cases h1 : constValues fs with
    | error e => simp [h1] at h
    | ok ws =>
      simp only [h1, Except.ok.injEq] at h
      subst h
      rw [List.forall_mem_cons]
      exact ⟨rfl, ih hf ws h1⟩

theorem constRatioLoop_some (n0 : List Nat) (v0 : ℚ) (xs : List (List Nat × Metric)) (hf : ∀ q ∈ xs, ∃ v, q.2 = .const v) : ∀ cps,
    constRatioLoop n0 (some v0) xs = .ok cps → ∀ p ∈ cps, p.f0.isSome ∧ p.f1.isSome := by
  induction xs with
  | nil => intro cps h; simp only [constRatioLoop, Except.ok.injEq] at h; subst h; simp
  | cons x xs ih =>
    obtain ⟨n1, f1⟩ := x
    rw [List.forall_mem_cons] at hf
    obtain ⟨⟨v, hv⟩, hf⟩ := hf
    simp only at hv
    subst hv
    intro cps h
    simp only [constRatioLoop, Metric.const?] at h
    split_ifs at h
    cases hr : constRatioLoop n0 (some v0) xs with
    | error e => simp [hr] at h
    | ok ws =>
      simp only [hr, Except.ok.injEq] at h
      subst h
      rw [List.forall_mem_cons]
      exact ⟨⟨rfl, rfl⟩, ih hf ws hr⟩

/-- Pairs of constant factors are known at setup. -/
theorem constPairs_known (F : Factors) (nodes : List (List Nat)) (hF : ∀ q ∈ Verif.IpmLp.metricsOf F, ∃ v, q = .const v) (cps : List CPair)
    (h : F.constPairs nodes = .ok cps) : ∀ p ∈ cps, p.f0.isSome ∧ p.f1.isSome := by
  cases F with
  | proportion fs =>
    simp only [Factors.constPairs, constProportional] at h
    cases nodes with
    | nil => simp at h
    | cons n0 rest =>
      simp only at h
      split_ifs at h
      cases hv : constValues fs with
      | error e => simp [hv] at h
      | ok vs =>
        have hs := constValues_some fs hF vs hv
        simp only [hv] at h
        have hany : ¬ (vs.any Option.isNone = true) := by
          intro hx
          obtain ⟨o, ho, hn⟩ := List.any_eq_true.1 hx
          have := hs o ho
          cases o with
          | none => cases this
          | some _ => cases hn
        rw [if_neg hany] at h
        split_ifs at h
        simp only [Except.ok.injEq] at h
        subst h
        intro p hp
        obtain ⟨q, hq, rfl⟩ := List.mem_map.1 hp
        have := hs q.2 (List.of_mem_zip (a := q.1) (b := q.2) hq).2
        exact ⟨rfl, by simpa using this⟩
  | ratio fs =>
    simp only [Factors.constPairs, constRatio] at h
    split_ifs at h
    cases nodes with
    | nil => simp at h
    | cons n0 ns =>
      cases fs with
      | nil => simp at h
      | cons f0 fs =>
        simp only [Verif.IpmLp.metricsOf, List.forall_mem_cons] at hF
        obtain ⟨⟨v, rfl⟩, hF⟩ := hF
        simp only [Metric.const?] at h
        split_ifs at h
        exact constRatioLoop_some n0 v _ (fun q hq => hF _ (List.of_mem_zip (a := q.1) (b := q.2) hq).2) cps h
  | coefficients fs rhs =>
    simp only [Factors.constPairs, constCoefficients] at h
    split_ifs at h
    split at h
    · rename_i f0 f1 _
      simp only [Except.ok.injEq] at h
      subst h
      simp only [Verif.IpmLp.metricsOf, List.cons_append, List.nil_append, List.forall_mem_cons] at hF
      obtain ⟨⟨v, rfl⟩, ⟨w, rfl⟩, _⟩ := hF
      simp [Metric.const?]
    · simp at h

theorem factorRows_none (m : ColMap) (net : Network) (ps : List CPair) (hp : ∀ p ∈ ps, p.f0.isSome ∧ p.f1.isSome) : ∀ b ids b' ids',
    factorRows m net ps b ids = some (b', ids') → ∀ o ∈ ids', o ∈ ids ∨ o = none := by
  induction ps with
  | nil =>
    intro b ids b' ids' h
    simp only [factorRows, Option.some.injEq, Prod.mk.injEq] at h
    obtain ⟨rfl, rfl⟩ := h
    exact fun r h => Or.inl h
  | cons p ps ih =>
    rw [List.forall_mem_cons] at hp
    intro b ids b' ids' h
    simp only [factorRows] at h
    cases h1 : factorRow m net p with
    | none => simp [h1] at h
    | some r =>
      simp only [h1] at h
      rw [if_pos hp.1] at h
      intro o ho
      rcases ih hp.2 _ _ _ _ h o ho with ho | ho
      · simp only [List.mem_append, List.mem_singleton] at ho
        exact ho
      · exact Or.inr ho

theorem createFactorRows_none (m : ColMap) (net : Network) (as : List AggNode)
    (hc : ∀ a ∈ as, ∀ F, a.factors = some F → ∀ q ∈ Verif.IpmLp.metricsOf F, ∃ v, q = .const v) : ∀ k b ids b' ids',
    createFactorRows m net as k b ids = some (b', ids') → ∀ q ∈ ids', q ∈ ids ∨ ∀ o ∈ q.2, o = none := by
  induction as with
  | nil =>
    intro k b ids b' ids' h
    simp only [createFactorRows, Option.some.injEq, Prod.mk.injEq] at h
    obtain ⟨rfl, rfl⟩ := h
    exact fun r h => Or.inl h
  | cons a as ih =>
    rw [List.forall_mem_cons] at hc
    intro k b ids b' ids' h
    simp only [createFactorRows] at h
    cases hf : a.factors with
    | none => simp only [hf] at h; exact ih hc.2 _ _ _ _ _ h
    | some f =>
      simp only [hf] at h
      cases hp : f.constPairs a.nodes with
      | error e =>
        rw [hp] at h
        cases e <;> first | cases h | exact ih hc.2 _ _ _ _ _ h
      | ok ps =>
        simp only [hp] at h
        cases h1 : factorRows m net ps b [] with
        | none => simp [h1] at h
        | some t =>
          obtain ⟨b1, rows⟩ := t
          simp only [h1] at h
          intro q hq
          rcases ih hc.2 _ _ _ _ _ h q hq with hq | hq
          · simp only [List.mem_append, List.mem_singleton] at hq
            rcases hq with hq | rfl
            · exact Or.inl hq
            · refine Or.inr fun o ho => ?_
              rcases factorRows_none m net ps (constPairs_known f a.nodes (hc.1 f hf) ps hp) _ _ _ _ h1 o ho with h | h
              · cases h
              · exact h
          · exact Or.inr hq

theorem create_ids {M : Model} {big negBig : ℚ} {sets : List (List Nat)} {s : Built} (h : create M big negBig sets = .ok s)
    (hv : M.Valid) (hmc : MembersConstant M) (hg : GroupsAre M sets) :
    (∀ r ∈ s.nodeRows, r.type = .continuous) ∧
    (Verif.IpmLp.ConstantFactors M → ∀ q ∈ s.factorRows, ∀ o ∈ q.2, o = none) := by
  unfold create at h
  cases hm : createColMap M.net with
  | error e => simp [hm] at h
  | ok m =>
    simp only [hm] at h
    obtain ⟨-, e2, -⟩ := addBinaries_exact sets (addEdgeColumns m.colToEdges.length (LpBuilder.new big negBig)) ⟨[], []⟩
    cases hb : addBinaries sets (addEdgeColumns m.colToEdges.length (LpBuilder.new big negBig)) ⟨[], []⟩ with
    | mk b0 bins =>
      rw [hb] at e2 h
      simp only [Verif.Topology.lookup, true_and] at e2 h
      unfold createRows at h
      cases h1 : createMassBalance m M.net.nodes b0 with
      | none => simp [h1] at h
      | some bm =>
        simp only [h1] at h
        cases h2 : createNodeRows m M.data bins.ofNode M.net.nodes bm [] with
        | none => simp [h2] at h
        | some q2 =>
          obtain ⟨bn, nodeRows⟩ := q2
          simp only [h2] at h
          cases h3 : createAggRows m M.net M.aggs bn [] with
          | none => simp [h3] at h
          | some q3 =>
            obtain ⟨ba, aggRows⟩ := q3
            simp only [h3] at h
            cases h4 : createFactorRows m M.net M.aggs 0 ba [] with
            | none => simp [h4] at h
            | some q4 =>
              obtain ⟨bf, facRows⟩ := q4
              simp only [h4] at h
              cases h5 : createVsRows m M.net M.vs bf [] with
              | none => simp [h5] at h
              | some q5 =>
                obtain ⟨bv, vsRows⟩ := q5
                simp only [h5] at h
                cases h6 : createExclusivityRows bins.ofSet M.aggs bv with
                | none => simp [h6] at h
                | some be =>
                  simp only [h6] at h
                  cases h7 : m.build with
                  | none => simp [h7] at h
                  | some cols =>
                    simp only [h7, Except.ok.injEq] at h
                    subst h
                    refine ⟨fun r hr => ?_, fun hcf q hq => ?_⟩
                    · have hcb : ∀ n ∈ M.net.nodes, Verif.Topology.lookup n.index bins.ofNode ≠ none →
                          (constBounds n (M.data n.index)).isSome := by
                        intro n hn hl
                        have hin : InGroup M n.index := by
                          by_contra hno
                          exact hl ((e2 n.index).2 fun g hgs hi => hno ⟨g, (hg g).1 hgs, hi⟩)
                        obtain ⟨lo, hi, _, _, _, h8, _⟩ := member_bounds hv hmc hn hin
                        rw [h8]; rfl
                      rcases createNodeRows_types m M.data bins.ofNode M.net.nodes hcb _ _ _ _ h2 r hr with h | h
                      · cases h
                      · exact h
                    · have hcf' : ∀ a ∈ M.aggs, ∀ F, a.factors = some F → ∀ q ∈ Verif.IpmLp.metricsOf F, ∃ v, q = .const v := by
                        intro a ha F hF
                        have : a.relationship = some (.factored F) := by
                          unfold AggNode.factors at hF
                          split at hF
                          · rename_i f hr
                            simp only [Option.some.injEq] at hF
                            subst hF; exact hr
                          · cases hF
                        exact hcf a ha F this
                      rcases createFactorRows_none m M.net M.aggs hcf' _ _ _ _ _ h4 q hq with h | h
                      · cases h
                      · exact h

/-! ## Coefficients pushed by an update -/

/-- All coefficients waiting satisfy `P`. -/
def All (P : ℚ → Prop) (lp : Lp) : Prop := ∀ t ∈ lp.coefficientsToUpdate, P t.2.2

theorem all_bounds {P : ℚ → Prop} {lp lp' : Lp} {row : Nat} {l u : ℚ} (he : lp.applyRowBounds row l u = some lp') (h : All P lp) :
    All P lp' := by
  obtain ⟨_, _, rfl⟩ := applyRowBounds_some he
  exact h

theorem all_push {P : ℚ → Prop} {lp : Lp} {row c : Nat} {v : ℚ} (hv : P v) (h : All P lp) : All P (lp.pushCoefficient row c v) := by
  intro t ht
  simp only [Lp.pushCoefficient, List.mem_append, List.mem_singleton] at ht
  rcases ht with ht | rfl
  · exact h t ht
  · exact hv

theorem nodeBoundsLoop_all {P : ℚ → Prop} (M : Model) (st : StepState) (rs : List NodeRow) (hr : ∀ r ∈ rs, r.type = .continuous) : ∀ lp lp',
    nodeBoundsLoop M st rs lp = .ok lp' → All P lp → All P lp' := by
  induction rs with
  | nil =>
    intro lp lp' h
    simp only [nodeBoundsLoop, Except.ok.injEq] at h
    subst h; exact id
  | cons r rs ih =>
    intro lp lp' h
    rw [List.forall_mem_cons] at hr
    simp only [nodeBoundsLoop, hr.1] at h
    cases hn : M.net.nodes[r.node]? with
    | none => simp [hn] at h
    | some n =>
      cases hb : nodeBounds n (M.data n.index) st with
      | none => simp [hn, hb] at h
      | some p =>
        obtain ⟨lo, hi⟩ := p
        simp only [hn, hb] at h
        cases ha : lp.applyRowBounds r.row lo hi with
        | none => simp [ha] at h
        | some lp1 =>
          simp only [ha] at h
          exact fun hp => ih hr.2 _ _ h (all_bounds ha hp)

theorem pushEdges_all {P : ℚ → Prop} (cols : List Nat) (row : Nat) (k : ℚ) (hk : P k) (es : List Nat) : ∀ lp lp',
    pushEdges cols row k es lp = some lp' → All P lp → All P lp' := by
  induction es with
  | nil =>
    intro lp lp' h
    simp only [pushEdges, Option.some.injEq] at h
    subst h; exact id
  | cons e es ih =>
    intro lp lp' h
    simp only [pushEdges] at h
    cases hc : cols[e]? with
    | none => simp [hc] at h
    | some c =>
      simp only [hc] at h
      exact fun hp => ih _ _ h (all_push hk hp)

theorem pushNode_all {P : ℚ → Prop} (cols : List Nat) (row : Nat) (n : TNode) (k : ℚ) (hk : P k) (lp lp' : Lp)
    (h : pushNode cols row n k lp = some lp') (hp : All P lp) : All P lp' := by
  unfold pushNode at h
  cases hkd : n.kind with
  | storage =>
    simp only [hkd] at h
    cases h1 : pushEdges cols row k n.incoming lp with
    | none => simp [h1] at h
    | some lp1 =>
      simp only [h1] at h
      exact pushEdges_all cols row k hk _ _ _ h (pushEdges_all cols row k hk _ _ _ h1 hp)
  | _ =>
    simp only [hkd] at h
    exact pushEdges_all cols row k hk _ _ _ h hp

theorem pushNodes_all {P : ℚ → Prop} (net : Network) (cols : List Nat) (row : Nat) (k : ℚ) (hk : P k) (is : List Nat) : ∀ lp lp',
    pushNodes net cols row k is lp = some lp' → All P lp → All P lp' := by
  induction is with
  | nil =>
    intro lp lp' h
    simp only [pushNodes, Option.some.injEq] at h
    subst h; exact id
  | cons i is ih =>
    intro lp lp' h hp
    simp only [pushNodes] at h
    cases hn : net.nodes[i]? with
    | none => simp [hn] at h
    | some n =>
      simp only [hn] at h
      cases h1 : pushNode cols row n k lp with
      | none => simp [h1] at h
      | some lp1 =>
        simp only [h1] at h
        exact ih _ _ h (pushNode_all cols row n k hk _ _ h1 hp)

theorem updatePair_all {P : ℚ → Prop} (net : Network) (cols : List Nat) (row : Nat) (p : Pair) (hp : ∀ v, p.f0 = some v ∨ p.f1 = some v → P v)
    (lp lp' : Lp) (h : updatePair net cols row p lp = .ok lp') (ha : All P lp) : All P lp' := by
  unfold updatePair at h
  cases h0 : p.f0 with
  | none => simp [h0] at h
  | some k0 =>
    cases h1 : p.f1 with
    | none => simp [h0, h1] at h
    | some k1 =>
      simp only [h0, h1] at h
      cases e1 : pushNodes net cols row k0 p.nodes0 lp with
      | none => simp [e1] at h
      | some lp1 =>
        simp only [e1] at h
        cases e2 : pushNodes net cols row k1 p.nodes1 lp1 with
        | none => simp [e2] at h
        | some lp2 =>
          simp only [e2] at h
          cases e3 : lp2.applyRowBounds row p.rhs p.rhs with
          | none => simp [e3] at h
          | some lp3 =>
            simp only [e3, Except.ok.injEq] at h
            subst h
            exact all_bounds e3 (pushNodes_all net cols row k1 (hp _ (Or.inr h1)) _ _ _ e2
              (pushNodes_all net cols row k0 (hp _ (Or.inl h0)) _ _ _ e1 ha))

theorem updatePairs_all {P : ℚ → Prop} (net : Network) (cols : List Nat) (l : List (Pair × Option Nat))
    (hl : ∀ t ∈ l, t.2 ≠ none → ∀ v, t.1.f0 = some v ∨ t.1.f1 = some v → P v) : ∀ lp lp',
    updatePairs net cols l lp = .ok lp' → All P lp → All P lp' := by
  induction l with
  | nil =>
    intro lp lp' h
    simp only [updatePairs, Except.ok.injEq] at h
    subst h; exact id
  | cons t l ih =>
    obtain ⟨p, o⟩ := t
    rw [List.forall_mem_cons] at hl
    intro lp lp' h hp
    cases o with
    | none =>
      simp only [updatePairs] at h
      exact ih hl.2 _ _ h hp
    | some i =>
      simp only [updatePairs] at h
      cases h1 : updatePair net cols i p lp with
      | error e => simp [h1] at h
      | ok lp1 =>
        simp only [h1] at h
        exact ih hl.2 _ _ h (updatePair_all net cols i p (hl.1 (by simp)) _ _ h1 hp)

theorem factorLoop_all {P : ℚ → Prop} (M : Model) (σ : Nat → Option ℚ) (cols : List Nat) (l : List (Nat × List (Option Nat)))
    (hl : ∀ q ∈ l, (∃ o ∈ q.2, o ≠ none) → ∀ a F ps, M.aggs[q.1]? = some a → a.factors = some F → F.pairs a.nodes σ = .ok ps →
      ∀ p ∈ ps, ∀ v, p.f0 = some v ∨ p.f1 = some v → P v) : ∀ lp lp',
    factorLoop M σ cols l lp = .ok lp' → All P lp → All P lp' := by
  induction l with
  | nil =>
    intro lp lp' h
    simp only [factorLoop, Except.ok.injEq] at h
    subst h; exact id
  | cons q l ih =>
    obtain ⟨k, rows⟩ := q
    rw [List.forall_mem_cons] at hl
    intro lp lp' h hp0
    simp only [factorLoop] at h
    cases ha : M.aggs[k]? with
    | none => simp [ha] at h
    | some a =>
      simp only [ha] at h
      cases hf : a.factors with
      | none => simp [hf] at h
      | some f =>
        simp only [hf] at h
        cases hp : f.pairs a.nodes σ with
        | error e => simp [hp] at h
        | ok ps =>
          simp only [hp] at h
          by_cases hlen : rows.length = ps.length
          · rw [if_pos hlen] at h
            cases h1 : updatePairs M.net cols (ps.zip rows) lp with
            | error e => simp [h1] at h
            | ok lp1 =>
              simp only [h1] at h
              refine ih hl.2 _ _ h (updatePairs_all M.net cols _ ?_ _ _ h1 hp0)
              intro t ht hne
              obtain ⟨m1, m2⟩ := List.of_mem_zip (a := t.1) (b := t.2) ht
              exact hl.1 ⟨t.2, m2, hne⟩ a f ps ha hf hp t.1 m1
          · rw [if_neg hlen] at h
            cases h

theorem aggLoop_all {P : ℚ → Prop} (st : StepState) (l : List (Nat × AggNode)) : ∀ lp lp',
    aggLoop st l lp = .ok lp' → All P lp → All P lp' := by
  induction l with
  | nil =>
    intro lp lp' h
    simp only [aggLoop, Except.ok.injEq] at h
    subst h; exact id
  | cons q l ih =>
    obtain ⟨row, a⟩ := q
    intro lp lp' h hp
    simp only [aggLoop] at h
    cases h1 : valueOr 0 st.metric a.minFlow with
    | none => simp [h1] at h
    | some lo =>
      cases h2 : valueOr f64MAX st.metric a.maxFlow with
      | none => simp [h1, h2] at h
      | some hi =>
        simp only [h1, h2] at h
        cases h3 : lp.applyRowBounds row lo hi with
        | none => simp [h3] at h
        | some lp1 =>
          simp only [h3] at h
          exact ih _ _ h (all_bounds h3 hp)

theorem vsLoop_all {P : ℚ → Prop} (st : StepState) (l : List (Nat × Nat)) : ∀ lp lp',
    vsLoop st l lp = .ok lp' → All P lp → All P lp' := by
  induction l with
  | nil =>
    intro lp lp' h
    simp only [vsLoop, Except.ok.injEq] at h
    subst h; exact id
  | cons q l ih =>
    obtain ⟨row, v⟩ := q
    intro lp lp' h hp
    simp only [vsLoop] at h
    by_cases ha : st.vsActive v = true
    · rw [if_pos ha] at h
      cases h2 : st.vsBounds v with
      | none => simp [h2] at h
      | some p =>
        obtain ⟨av, mi⟩ := p
        simp only [h2] at h
        cases h3 : lp.applyRowBounds row (-av / st.days) (mi / st.days) with
        | none => simp [h3] at h
        | some lp1 =>
          simp only [h3] at h
          exact ih _ _ h (all_bounds h3 hp)
    · rw [if_neg ha] at h
      cases h3 : lp.applyRowBounds row lp.f64NegMax lp.f64Max with
      | none => simp [h3] at h
      | some lp1 =>
        simp only [h3] at h
        exact ih _ _ h (all_bounds h3 hp)

theorem update_all {P : ℚ → Prop} {M : Model} {s u : Built} {st : StepState} (hn : ∀ r ∈ s.nodeRows, r.type = .continuous)
    (hf : ∀ q ∈ s.factorRows, (∃ o ∈ q.2, o ≠ none) → ∀ a F ps, M.aggs[q.1]? = some a → a.factors = some F →
      F.pairs a.nodes st.metric = .ok ps → ∀ p ∈ ps, ∀ v, p.f0 = some v ∨ p.f1 = some v → P v)
    (h : update M s st = .ok u) : All P u.lp := by
  unfold update at h
  cases h1 : objectiveLoop M st.metric s.cols M.net.edges s.lp.zeroObj with
  | error e => simp [h1] at h
  | ok lpO =>
    simp only [h1] at h
    cases h2 : nodeBoundsLoop M st s.nodeRows lpO.resetRowBounds.resetCoefficients with
    | error e => simp [h2] at h
    | ok lpN =>
      simp only [h2] at h
      cases h3 : factorLoop M st.metric s.cols s.factorRows lpN with
      | error e => simp [h3] at h
      | ok lpF =>
        simp only [h3] at h
        cases h4 : aggLoop st (s.aggRows.zip M.aggs) lpF with
        | error e => simp [h4] at h
        | ok lpA =>
          simp only [h4] at h
          cases h5 : vsLoop st (s.vsRows.zip (List.range M.vs.length)) lpA with
          | error e => simp [h5] at h
          | ok lpV =>
            simp only [h5, Except.ok.injEq] at h
            subst h
            refine vsLoop_all st _ _ _ h5 (aggLoop_all st _ _ _ h4 (factorLoop_all M _ _ _ hf _ _ h3 (nodeBoundsLoop_all M st _ hn _ _ h2 ?_)))
            intro t ht
            cases ht

/-! ## What a library needs is there -/

theorem step_rows {M : Model} {s s' : Built} {st : StepState} (h : step M s st = .ok s') :
    s'.nodeRows = s.nodeRows ∧ s'.factorRows = s.factorRows := by
  unfold step update at h
  repeat' split at h
  all_goals first | (cases h; done) | skip
  simp only [Except.ok.injEq] at h
  subst h
  rename_i hu _ _ _
  repeat' split at hu
  all_goals first | (cases hu; done) | skip
  simp only [Except.ok.injEq] at hu
  subst hu
  exact ⟨rfl, rfl⟩

theorem changes_of {P : ℚ → Prop} {M : Model} (sts : List StepState) : ∀ s : Built, (∀ r ∈ s.nodeRows, r.type = .continuous) →
    (∀ st ∈ sts, ∀ q ∈ s.factorRows, (∃ o ∈ q.2, o ≠ none) → ∀ a F ps, M.aggs[q.1]? = some a → a.factors = some F →
      F.pairs a.nodes st.metric = .ok ps → ∀ p ∈ ps, ∀ v, p.f0 = some v ∨ p.f1 = some v → P v) → Changes M P sts s := by
  induction sts with
  | nil => intro s _ _; trivial
  | cons st sts ih =>
    intro s hn hf
    rw [List.forall_mem_cons] at hf
    refine ⟨fun u hu => update_all hn hf.1 hu, fun s' hs' => ?_⟩
    obtain ⟨e1, e2⟩ := step_rows hs'
    exact ih s' (by rw [e1]; exact hn) (by rw [e2]; exact hf.2)

/-- A library accepts what it is registered for. -/
theorem suits_of (L : Library) {M : Model} {sets : List (List Nat)} {s : Built} (h : create M f64MAX (-f64MAX) sets = .ok s)
    (hv : M.Valid) (hmc : MembersConstant M) (hg : GroupsAre M sets) (ha : Verif.IpmLp.accepted L.features M = true) (sts : List StepState)
    (hh : L = .highs → ∀ st ∈ sts, SmallFactors M 10000000000 st) : Suits L M sets sts s := by
  obtain ⟨h1, h2⟩ := create_ids h hv hmc hg
  obtain ⟨-, f2, f3, -⟩ := Verif.IpmLp.C77_features M
  cases L with
  | clp =>
    have hno := f2.1 ha
    show sets = []
    cases sets with
    | nil => rfl
    | cons g gs =>
      obtain ⟨a, ha', mn, mx, he, _⟩ := (hg g).1 (by simp)
      rw [hno a ha'] at he; cases he
  | cbc =>
    have hcf := h2 (f3.1 ha)
    refine changes_of sts s h1 fun st _ q hq ho => ?_
    obtain ⟨o, ho, hne⟩ := ho
    exact absurd (hcf q hq o ho) hne
  | highs =>
    exact changes_of sts s h1 fun st hst q _ _ a F ps haq hF hps p hp v hv =>
      hh rfl st hst a (List.mem_of_getElem? haq) F ps hF hps p hp v hv

end Verif.Backends
