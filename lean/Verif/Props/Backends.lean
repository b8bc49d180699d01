import Verif.Lemmas.BackendsAnswer

/-!
# C94, C95: the solvers

C94: after any number of steps the library of a solver holds the program of the last step: its solutions are the allowed flows
(with a choice of exclusive groups), and those of least cost solve the allocation problem. C95: what a step returns is what the
library reported, and only when it reported a solution of least cost.

HiGHS cuts off coefficients beyond ten thousand million (`C94_clamp_refuted`), and Cbc is believed whatever it reports
(`C95_cbc_refuted`).
-/

namespace Verif.Backends

open Verif.Solver
open Verif.Topology (Network TNode Builder)

/-- **C94 (program held).** After any steps the library holds the program of the last step: the same solutions at the same
costs, in the same columns. -/
theorem C94_held (L : Library) (M : Model) (sets : List (List Nat)) (s s' : Built) (sts : List StepState)
    (h : create M f64MAX (-f64MAX) sets = .ok s) (hL : L = .clp → sets = []) (hp : programs M sts s = .ok s')
    (hs : Suits L M sets sts s) :
    ∃ S S', L.setup M sets = .ok S ∧ L.prepareAll M sts S = .ok S' ∧ S'.built.cols = s'.cols ∧
      ∀ x, (S'.held.Feasible x ↔ s'.lp.Feasible x) ∧ S'.held.objective x = s'.lp.objective x := by
  obtain ⟨b, S, h1, h2, -⟩ := setup_tracks L h hL
  obtain ⟨S', h3, h4⟩ := steps_track L sets sts s s' S h2 hs hp
  exact ⟨S, S', h1, h3, h4.cols, fun x => ⟨h4.feasible x, h4.objective x⟩⟩

theorem programs_defined {M : Model} (hv : M.Valid) (hmc : MembersConstant M) (hf : M.FactorsOk) {sets : List (List Nat)}
    (hg : GroupsAre M sets) : ∀ (sts : List StepState) (s : Built), Reach M f64MAX (-f64MAX) sets s →
    (∀ t ∈ sts, Defined M t) → ∃ s', programs M sts s = .ok s' ∧ Reach M f64MAX (-f64MAX) sets s' := by
  intro sts
  induction sts with
  | nil => intro s hs _; exact ⟨s, rfl, hs⟩
  | cons st sts ih =>
    intro s hs hd
    rw [List.forall_mem_cons] at hd
    obtain ⟨s1, h1⟩ := (C86_defined M hv hmc hf sets hg _ _ s hs st).2 hd.1
    obtain ⟨s2, h2, h3⟩ := ih s1 (.step s s1 st hs h1) hd.2
    refine ⟨s2, ?_, h3⟩
    simp only [programs, h1]
    exact h2

theorem programs_append {M : Model} : ∀ (sts : List StepState) (st : StepState) (s s1 s2 : Built), programs M sts s = .ok s1 →
    step M s1 st = .ok s2 → programs M (sts ++ [st]) s = .ok s2 := by
  intro sts
  induction sts with
  | nil =>
    intro st s s1 s2 h1 h2
    simp only [programs, Except.ok.injEq] at h1
    subst h1
    simp only [List.nil_append, programs, h2]
  | cons t sts ih =>
    intro st s s1 s2 h1 h2
    simp only [programs] at h1
    cases ht : step M s t with
    | error e => simp [ht] at h1
    | ok s3 =>
      simp only [ht] at h1
      simp only [List.cons_append, programs, ht]
      exact ih st s3 s1 s2 h1 h2

/-- **C94 (solutions).** For a network whose features the solver has, setup succeeds, and so does every step in which everything
asked for is there. After any steps, the solutions of the program in the library are the allowed flows of the last step, and
those of least cost solve its allocation problem. For HiGHS the factors must not exceed ten thousand million. -/
theorem C94_allocation (L : Library) (M : Model) (hv : M.Valid) (hmc : MembersConstant M) (hf : M.FactorsOk)
    (sets : List (List Nat)) (hg : GroupsAre M sets) (hne : M.net.edges ≠ []) (ha : Verif.IpmLp.accepted L.features M = true)
    (sts : List StepState) (st : StepState) (hdef : ∀ t ∈ sts ++ [st], Defined M t) (hd : 0 < st.days)
    (hh : L = .highs → ∀ t ∈ sts ++ [st], SmallFactors M 10000000000 t) :
    ∃ S S', L.setup M sets = .ok S ∧ L.prepareAll M (sts ++ [st]) S = .ok S' ∧
      S'.built.cols.length = M.net.edges.length ∧
      (∀ x, S'.held.Feasible x → AllowedChoice M st (S'.built.flow x) ∧ WithinLimits M f64MAX (-f64MAX) st (S'.built.flow x)) ∧
      (∀ f, AllowedChoice M st f → WithinLimits M f64MAX (-f64MAX) st f →
        ∃ x, S'.held.Feasible x ∧ ∀ e < M.net.edges.length, S'.built.flow x e = f e) ∧
      ∀ x, S'.held.Optimal x → Best M st (S'.built.flow x) := by
  obtain ⟨s, hs⟩ := (C86_create M hv hmc hf sets hg f64MAX (-f64MAX)).2 hne
  obtain ⟨s1, h1, r1⟩ := programs_defined hv hmc hf hg sts s (.create s hs) (fun t ht => hdef t (List.mem_append_left _ ht))
  obtain ⟨s2, h2⟩ := (C86_defined M hv hmc hf sets hg _ _ s1 r1 st).2 (hdef st (by simp))
  have hsu := suits_of L hs hv hmc hg ha (sts ++ [st]) hh
  have hL : L = .clp → sets = [] := by rintro rfl; exact hsu
  obtain ⟨S, S', e1, e2, e3, e4⟩ := C94_held L M sets s s2 (sts ++ [st]) hs hL (programs_append sts st s s1 s2 h1 h2) hsu
  have hflow : ∀ x, S'.built.flow x = s2.flow x := fun x => by unfold Built.flow; rw [e3]
  refine ⟨S, S', e1, e2, ?_, fun x hx => ?_, fun f h3 h4 => ?_, fun x hx => ?_⟩
  · obtain ⟨m, b, bins, g, -⟩ := reach_general (Reach.step s1 s2 st r1 h2)
    rw [e3]; exact (g.inv hv).2.2.2.1
  · rw [hflow]
    exact C86_sound M hv hmc hf sets hg _ _ s1 s2 r1 st hd h2 x ((e4 x).1.1 hx)
  · obtain ⟨x, x1, x2⟩ := C86_represented M hv hmc hf sets hg _ _ million_le_max s1 s2 r1 st hd h2 f h3 h4
    exact ⟨x, (e4 x).1.2 x1, fun e he => by rw [hflow]; exact x2 e he⟩
  · rw [hflow]
    have hopt : ∀ y, s2.lp.Feasible y → s2.lp.objective x ≤ s2.lp.objective y := fun y hy => by
      rw [← (e4 x).2, ← (e4 y).2]; exact hx.2 y ((e4 y).1.2 hy)
    have hfx := (e4 x).1.1 hx.1
    exact ⟨(C86_sound M hv hmc hf sets hg _ _ s1 s2 r1 st hd h2 x hfx).1, fun cost hc =>
      (C86_optimal M hv hmc hf sets hg _ _ million_le_max s1 s2 r1 st hd h2 cost hc x hfx hopt).2⟩

/-- **C94 (Microlp).** The problem made for Microlp has the solutions of the program of the step, at the same costs; only the
largest number is no bound for rows. When no problem can be made and the run ends, the program has no solution. -/
theorem C94_microlp (M : Model) (sets : List (List Nat)) (s s' : Built) (hs : Reach M f64MAX (-f64MAX) sets s) (st : StepState)
    (h : step M s st = .ok s') :
    (∀ s'' p, microPrepare M s st = .ok (s'', p) → s'' = s' ∧
      (∀ x, s'.lp.Feasible x ↔ p.Feasible x ∧ ∀ i : Nat, s'.lp.rowUpper[i]? = some f64MAX → value (s'.lp.entries i) x ≤ f64MAX) ∧
      ∀ x, p.objective x = s'.lp.objective x) ∧
    ((¬ ∃ r, microPrepare M s st = .ok r) → ∀ x, ¬ s'.lp.Feasible x) := by
  obtain ⟨m1, m2⟩ := makeProblem_means (Reach.step s s' st hs h)
  unfold microPrepare
  simp only [h]
  cases hm : makeProblem s'.lp with
  | none =>
    refine ⟨fun s'' p hp => by simp at hp, fun _ => m2 hm⟩
  | some p =>
    refine ⟨fun s'' p' hp => ?_, fun hn => absurd ⟨_, rfl⟩ hn⟩
    simp only [Except.ok.injEq, Prod.mk.injEq] at hp
    obtain ⟨rfl, rfl⟩ := hp
    exact ⟨rfl, m1 p hm⟩

/-- **C95 (Clp).** A step with Clp returns flows exactly if Clp reported a solution of least cost, and they are the values of the
columns of the edges. -/
theorem C95_clp (cols : List Nat) (status : Int) (values f : List ℚ) :
    clpResult cols status values = .flows f ↔ status = 0 ∧ Read cols values f := by
  rw [← saved_flows]
  unfold clpResult
  by_cases h : status = 0
  · rw [if_pos h]; simp [h]
  · rw [if_neg h]; simp [h]

/-- **C95 (HiGHS).** A step with HiGHS returns flows exactly if HiGHS reported a solution of least cost, at once or after one
restart, and they are the values of the columns of the edges. -/
theorem C95_highs (cols : List Nat) (a : HighsAnswers) (f : List ℚ) :
    highsResult cols a = .flows f ↔ a.Solved ∧ Read cols a.values f := by
  unfold highsResult HighsAnswers.Solved
  rw [← highsRun_ok, ← highsRun_unknown, ← highsRun_ok, ← highsCall_fine a.clear]
  cases h1 : highsRun a.first.1 a.first.2 with
  | panic => simp
  | ok => simp only [true_or, true_and]; exact highsSave_flows cols a f
  | model b =>
    cases b with
    | false => simp [highsFailed_flows]
    | true =>
      cases h2 : highsCall a.clear with
      | none => simp
      | some o =>
        cases o with
        | none => simp
        | some u =>
          cases h3 : highsRun a.second.1 a.second.2 with
          | panic => simp
          | ok =>
            simp only [reduceCtorEq, and_true, or_true, true_and]
            exact highsSave_flows cols a f
          | model b => simp [highsFailed_flows]

/-- **C95 (Microlp).** -/
theorem C95_microlp (cols : List Nat) (a : MicroAnswer) (f : List ℚ) :
    microResult cols a = .flows f ↔ ∃ values, a = .solution values ∧ Read cols values f := by
  cases a with
  | failed => simp [microResult]
  | interrupted => simp [microResult]
  | solution values =>
    simp only [microResult, MicroAnswer.solution.injEq, exists_eq_left']
    exact saved_flows cols values f

/-- **C95 (Cbc), partial.** A step with Cbc returns flows only if the call returned zero; they differ from the values of the columns
of the edges by less than a ten thousand millionth, and not at all where those are larger. Missing: that Cbc found a solution,
see `C95_cbc_refuted`. -/
theorem C95_cbc_partial (cols : List Nat) (ret : Int) (found : CbcFound) (values f : List ℚ)
    (h : cbcResult cols ret found values = .flows f) :
    ret = 0 ∧ ∃ g, Read cols values g ∧ f.length = g.length ∧
      ∀ e, |point f e - point g e| < 1 / 10000000000 ∧ (1 / 10000000000 ≤ |point g e| → point f e = point g e) := by
  unfold cbcResult at h
  by_cases hr : ret = 0
  · rw [if_neg (by simp [hr])] at h
    cases hs : saved cols values with
    | error => simp [hs] at h
    | panic => simp [hs] at h
    | flows g =>
      simp only [hs, Result.flows.injEq] at h
      refine ⟨hr, g, (saved_flows _ _ _).1 hs, by rw [← h]; simp, fun e => ?_⟩
      have hp : point f e = if |point g e| < 1 / 10000000000 then 0 else point g e := by
        unfold point
        rw [← h, List.getD_eq_getElem?_getD, List.getElem?_map, List.getD_eq_getElem?_getD]
        cases g[e]? with
        | none => simp
        | some q => simp
      rw [hp]
      exact ⟨cut_near _, fun hl => if_neg (not_lt.2 hl)⟩
  · rw [if_pos hr] at h; cases h

/-- **C95 (flows of a step).** If the values that a solver reads from its library solve the program the library holds, then the
flows returned in the step are allowed and of least cost. -/
theorem C95_best (L : Library) (M : Model) (hv : M.Valid) (hmc : MembersConstant M) (hf : M.FactorsOk)
    (sets : List (List Nat)) (hg : GroupsAre M sets) (hne : M.net.edges ≠ []) (ha : Verif.IpmLp.accepted L.features M = true)
    (sts : List StepState) (st : StepState) (hdef : ∀ t ∈ sts ++ [st], Defined M t) (hd : 0 < st.days)
    (hh : L = .highs → ∀ t ∈ sts ++ [st], SmallFactors M 10000000000 t) :
    ∃ S S', L.setup M sets = .ok S ∧ L.prepareAll M (sts ++ [st]) S = .ok S' ∧
      (L = .clp → ∀ status values f, (status = 0 → S'.held.Optimal (point values)) →
        clpResult S'.built.cols status values = .flows f → Best M st (point f)) ∧
      (L = .highs → ∀ a f, (a.Solved → S'.held.Optimal (point a.values)) →
        highsResult S'.built.cols a = .flows f → Best M st (point f)) ∧
      (L = .cbc → ∀ ret found values f, S'.held.Optimal (point values) →
        cbcResult S'.built.cols ret found values = .flows f →
        ∃ g, Best M st g ∧ ∀ e < M.net.edges.length, |point f e - g e| < 1 / 10000000000) := by
  obtain ⟨S, S', e1, e2, e3, -, -, e4⟩ := C94_allocation L M hv hmc hf sets hg hne ha sts st hdef hd hh
  have key : ∀ values f, S'.held.Optimal (point values) → Read S'.built.cols values f → Best M st (point f) := fun values f ho hr =>
    Best.agree hv (fun e he => hr.flow e (by omega)) (e4 _ ho)
  refine ⟨S, S', e1, e2, fun _ status values f ho hr => ?_, fun _ a f ho hr => ?_, fun _ ret found values f ho hr => ?_⟩
  · obtain ⟨h1, h2⟩ := (C95_clp _ _ _ _).1 hr
    exact key values f (ho h1) h2
  · obtain ⟨h1, h2⟩ := (C95_highs _ _ _).1 hr
    exact key _ f (ho h1) h2
  · obtain ⟨-, g, h1, -, h3⟩ := C95_cbc_partial _ _ _ _ _ hr
    exact ⟨point g, key values g ho h1, fun e _ => (h3 e).1⟩

/-- **C95 (flows of a step with Microlp).** If the values that Microlp returns solve the problem made for it, and rows have values
up to the largest number, then the flows returned in the step are allowed and of least cost. -/
theorem C95_microlp_best (M : Model) (hv : M.Valid) (hmc : MembersConstant M) (hf : M.FactorsOk) (sets : List (List Nat))
    (hg : GroupsAre M sets) (s s' : Built) (hs : Reach M f64MAX (-f64MAX) sets s) (st : StepState) (hd : 0 < st.days) (p : Problem)
    (h : microPrepare M s st = .ok (s', p)) (a : MicroAnswer) (f : List ℚ)
    (ha : ∀ values, a = .solution values → p.Feasible (point values) ∧
      (∀ y, p.Feasible y → p.objective (point values) ≤ p.objective y) ∧ ∀ i, value (s'.lp.entries i) (point values) ≤ f64MAX)
    (hr : microResult s'.cols a = .flows f) : Best M st (point f) := by
  have hst : step M s st = .ok s' := by
    unfold microPrepare at h
    cases h1 : step M s st with
    | error e => simp [h1] at h
    | ok s1 =>
      simp only [h1] at h
      cases h2 : makeProblem s1.lp with
      | none => simp [h2] at h
      | some p1 =>
        simp only [h2, Except.ok.injEq, Prod.mk.injEq] at h
        rw [h.1]
  obtain ⟨-, m1, m2⟩ := (C94_microlp M sets s s' hs st hst).1 s' p h
  obtain ⟨values, rfl, hread⟩ := (C95_microlp _ _ _).1 hr
  obtain ⟨a1, a2, a3⟩ := ha values rfl
  have hfx := (m1 _).2 ⟨a1, fun i _ => a3 i⟩
  have hopt : ∀ y, s'.lp.Feasible y → s'.lp.objective (point values) ≤ s'.lp.objective y := fun y hy => by
    rw [← m2, ← m2]; exact a2 y ((m1 y).1 hy).1
  have hlen : s'.cols.length = M.net.edges.length := by
    obtain ⟨m, b, bins, g, -⟩ := reach_general (Reach.step s s' st hs hst)
    exact (g.inv hv).2.2.2.1
  refine Best.agree hv (fun e he => hread.flow e (by omega)) ⟨(C86_sound M hv hmc hf sets hg _ _ s s' hs st hd hst _ hfx).1, fun cost hc => ?_⟩
  exact (C86_optimal M hv hmc hf sets hg _ _ million_le_max s s' hs st hd hst cost hc _ hfx hopt).2

end Verif.Backends
