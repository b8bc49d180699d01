import Verif.Lemmas.Simulation
import Verif.Spec.Merit

/-! # C60 (runs), C61 (balance of the whole network), C62 (runs that never fail) -/

namespace Verif.Simulation

open Verif.State Verif.Solver Verif.Time
open Verif.Topology (TNode)

variable {S : Sim}

theorem lastState_cons (s : NetworkState) (r : Record) (rs : List Record) : lastState s (r :: rs) = lastState r.post rs := by
  unfold lastState
  rw [List.getLast?_cons]
  cases rs.getLast? <;> simp

theorem vsIn_next {inp inp' : Inp} {s : NetworkState} (h : VsIn S inp s)
    (hb : ∀ k < S.vsNodes.length, ∃ lo hi : ℚ, VolumesAre inp.metric (S.vsMin k) (S.vsMax k) lo hi)
    (hsize : ∀ (k : Nat) (n : VSNode) (v : VSState), S.vsNodes[k]? = some n → s.vs[k]? = some v → v.history.map (·.size) = n.rollingWindow)
    (hw : ∀ k < S.vsNodes.length, ∀ lo hi lo' hi' : ℚ, VolumesAre inp.metric (S.vsMin k) (S.vsMax k) lo hi →
      VolumesAre inp'.metric (S.vsMin k) (S.vsMax k) lo' hi' → lo' ≤ lo ∧ hi ≤ hi')
    (hs : (∃ n ∈ S.vsNodes, n.rollingWindow.isSome = true) → inp'.t.days ≤ inp.t.days) : VsIn S inp' s := by
  intro k n lo' hi' hn hb'
  have hlt := (List.getElem?_eq_some_iff.1 hn).1
  obtain ⟨lo, hi, hb⟩ := hb k hlt
  obtain ⟨v, h1, h2, h3, h4⟩ := h k n lo hi hn hb
  obtain ⟨h5, h6⟩ := hw k hlt lo hi lo' hi' hb hb'
  refine ⟨v, h1, le_trans h5 h2, le_trans h3 h6, ?_⟩
  intro hh hhh
  obtain ⟨a, c⟩ := h4 hh hhh
  have hroll : n.rollingWindow.isSome = true := by rw [← hsize k n v hn h1, hhh]; rfl
  have hd := hs ⟨n, List.mem_of_getElem? hn, hroll⟩
  have := mul_le_mul_of_nonneg_right hd (List.sum_nonneg a)
  exact ⟨a, by linarith⟩

/-- The conditions on inputs that are used step by step. -/
structure StepsOk (S : Sim) (inputs : List Inp) : Prop where
  days : ∀ inp ∈ inputs, 0 < inp.t.days
  sound : ∀ inp ∈ inputs, ∀ lp x, inp.solve lp = some x → lp.Feasible x
  start : ∀ inp ∈ inputs, ∀ (k : Nat) (n : VSNode) (lo hi : ℚ), S.vsNodes[k]? = some n →
    VolumesAre inp.metric (S.vsMin k) (S.vsMax k) lo hi → lo ≤ n.initialVolume.get hi ∧ n.initialVolume.get hi ≤ hi
  widen : inputs.Pairwise fun a b => ∀ k < S.vsNodes.length, ∀ lo hi lo' hi' : ℚ,
    VolumesAre a.metric (S.vsMin k) (S.vsMax k) lo hi → VolumesAre b.metric (S.vsMin k) (S.vsMax k) lo' hi' → lo' ≤ lo ∧ hi ≤ hi'
  rolling : ∀ inp ∈ inputs, RollOk S inp
  shorter : (∃ n ∈ S.vsNodes, n.rollingWindow.isSome = true) → inputs.Pairwise fun a b => b.t.days ≤ a.t.days

theorem stepsOk {inputs : List Inp} (h : S.InputsOk inputs) : StepsOk S inputs :=
  ⟨h.days, h.sound, h.start, h.widen, h.rolling, h.shorter⟩

theorem StepsOk.tail {inp : Inp} {inputs : List Inp} (h : StepsOk S (inp :: inputs)) : StepsOk S inputs :=
  ⟨fun i hi => h.days i (List.mem_cons_of_mem _ hi), fun i hi => h.sound i (List.mem_cons_of_mem _ hi),
    fun i hi => h.start i (List.mem_cons_of_mem _ hi), (List.pairwise_cons.1 h.widen).2,
    fun i hi => h.rolling i (List.mem_cons_of_mem _ hi), fun hr => (List.pairwise_cons.1 (h.shorter hr)).2⟩

/-- One step of a run, and what the next one may rely on. -/
theorem steps_main (hv : S.Valid) {big negBig : ℚ} {inp : Inp} {rest : List Inp} {s : SimState} (hi : Inv S big negBig s)
    (hok : StepsOk S (inp :: rest)) (hhead : inp.t.index = 0 ∨ VsIn S inp s.network) :
    (∀ e, S.step inp s = .error e → FailsFor S big negBig inp s.network e) ∧
    ∀ s' r, S.step inp s = .ok (s', r) → Inv S big negBig s' ∧ r.inp = inp ∧ r.post = s'.network ∧
      S.Carries inp s.network r.pre ∧ S.StepOk inp r.pre r.flow r.post ∧
      ∀ inp', rest.head? = some inp' → inp'.t.index = 0 ∨ VsIn S inp' s'.network := by
  have hmem : inp ∈ inp :: rest := List.mem_cons_self ..
  obtain ⟨h1, h2⟩ := step_main hv hi inp (hok.days inp hmem) (hok.sound inp hmem) (hok.start inp hmem) (hok.rolling inp hmem) hhead
  refine ⟨h1, fun s' r h => ?_⟩
  obtain ⟨a1, a2, a3, a4, a5, a6⟩ := h2 s' r h
  refine ⟨a1, a2, a3, a4, a5, ?_⟩
  intro inp' hh
  have hin : inp' ∈ rest := List.mem_of_mem_head? hh
  right
  refine vsIn_next a6 ?_ a1.hist ((List.pairwise_cons.1 hok.widen).1 inp' hin) (fun hr => (List.pairwise_cons.1 (hok.shorter hr)).1 inp' hin)
  intro k hk
  obtain ⟨lo, hi, v, hb, _⟩ := a5.vs k _ (List.getElem?_eq_getElem hk)
  exact ⟨lo, hi, hb⟩

theorem run_main (hv : S.Valid) {big negBig : ℚ} (inputs : List Inp) : ∀ s : SimState, Inv S big negBig s → StepsOk S inputs →
    (∀ inp, inputs.head? = some inp → inp.t.index = 0 ∨ VsIn S inp s.network) →
    S.RunOk s.network inputs (S.run inputs s).1 ∧
    (∀ s', (S.run inputs s).2 = .ok s' → (S.run inputs s).1.length = inputs.length ∧
      s'.network = lastState s.network (S.run inputs s).1) ∧
    (∀ e, (S.run inputs s).2 = .error e → ∃ inp, inputs[(S.run inputs s).1.length]? = some inp ∧
      FailsFor S big negBig inp (lastState s.network (S.run inputs s).1) e) := by
  induction inputs with
  | nil =>
    intro s _ _ _
    simp only [Sim.run]
    refine ⟨trivial, ?_, fun e h => by cases h⟩
    intro s' h
    cases h
    exact ⟨rfl, rfl⟩
  | cons inp rest ih =>
    intro s hi hso hhead
    obtain ⟨hfail, hok⟩ := steps_main hv hi hso (hhead inp rfl)
    unfold Sim.run
    cases hst : S.step inp s with
    | error e =>
      refine ⟨trivial, fun s' h => (by cases h), ?_⟩
      intro e' h
      simp only [Except.error.injEq] at h
      subst h
      exact ⟨inp, rfl, hfail e hst⟩
    | ok p =>
      obtain ⟨s1, r⟩ := p
      obtain ⟨hi', h1, h2, h3, h4, h5⟩ := hok s1 r hst
      obtain ⟨a1, a2, a3⟩ := ih s1 hi' hso.tail h5
      have hlast : ∀ rs : List Record, lastState s.network (r :: rs) = lastState s1.network rs := by
        intro rs
        rw [lastState_cons, h2]
      simp only [List.length_cons, hlast]
      refine ⟨⟨h1, h3, h4, by rw [h2]; exact a1⟩, ?_, ?_⟩
      · intro s' h
        obtain ⟨b1, b2⟩ := a2 s' h
        exact ⟨by omega, b2⟩
      · intro e h
        obtain ⟨i, b1, b2⟩ := a3 e h
        exact ⟨i, by simpa using b1, b2⟩

theorem headOk {inputs : List Inp} (h : inputs.map (fun inp => inp.t.index) = List.range inputs.length) :
    ∀ inp, inputs.head? = some inp → inp.t.index = 0 := by
  intro inp hh
  cases inputs with
  | nil => cases hh
  | cons a l =>
    simp only [List.head?_cons, Option.some.injEq] at hh
    subst hh
    simp only [List.map_cons, List.length_cons, List.range_succ_eq_map, List.cons.injEq] at h
    exact h.1

/-- **C60.** Every simulation, whatever the values of its metrics and however long, in which the solver's answers satisfy the
program it is given: in each step completed the flows are allowed given the volumes at the start of the step, every volume
changes by exactly what flows in less what flows out or is used, and stays within its bounds; volumes are carried over to the
next step. It stops early only because a value is missing or the solver finds no solution; it never stops because of the
volumes. -/
theorem C60_run (hv : S.Valid) (inputs : List Inp) (hi : S.InputsOk inputs) (big negBig : ℚ) (s : SimState)
    (hs : S.initial big negBig = .ok s) :
    S.RunOk s.network inputs (S.run inputs s).1 ∧
    (∀ s', (S.run inputs s).2 = .ok s' → (S.run inputs s).1.length = inputs.length ∧
      s'.network = lastState s.network (S.run inputs s).1) ∧
    (∀ e, (S.run inputs s).2 = .error e → ∃ inp, inputs[(S.run inputs s).1.length]? = some inp ∧
      FailsFor S big negBig inp (lastState s.network (S.run inputs s).1) e) :=
  run_main hv inputs s (inv_initial hv hs) (stepsOk hi) (fun inp h => Or.inl (headOk hi.index inp h))

/-- **C60 (setup).** Setting up succeeds exactly for networks with an edge. -/
theorem C60_setup (hv : S.Valid) (big negBig : ℚ) : (∃ s, S.initial big negBig = .ok s) ↔ S.net.edges ≠ [] := by
  have := C86_create S.model hv.model hv.constant hv.factors S.sets hv.groups big negBig
  have hnet : S.model.net = S.net := rfl
  rw [hnet] at this
  rw [← this]
  unfold Sim.initial
  cases create S.model big negBig S.sets <;> simp

/-! ## Least cost -/

/-- Flows of least cost among those allowed for some choice of groups. -/
structure LeastChoice (M : Model) (big negBig : ℚ) (st : StepState) (cost : TNode → ℚ) (f : Nat → ℚ) : Prop where
  allowed : AllowedChoice M st f
  within : WithinLimits M big negBig st f
  least : ∀ f', AllowedChoice M st f' → WithinLimits M big negBig st f' → Solver.totalCost M cost f ≤ Solver.totalCost M cost f'

theorem run_optimal (hv : S.Valid) {big negBig : ℚ} (hbig : 1000000 ≤ big) (inputs : List Inp) : ∀ s : SimState, Inv S big negBig s → StepsOk S inputs →
    (∀ inp, inputs.head? = some inp → inp.t.index = 0 ∨ VsIn S inp s.network) → Optimal inputs →
    ∀ r ∈ (S.run inputs s).1, ∀ cost : TNode → ℚ,
      (∀ n ∈ S.net.nodes, n.incoming ≠ [] ∨ n.outgoing ≠ [] → S.CostIs r.inp.metric n (cost n)) →
      ∃ st, S.Shows r.inp r.pre st ∧ LeastChoice S.model big negBig st cost r.flow := by
  induction inputs with
  | nil => intro s _ _ _ _ r hr; simp [Sim.run] at hr
  | cons inp rest ih =>
    intro s hi hso hhead hopt r hr cost hcost
    have hmem : inp ∈ inp :: rest := List.mem_cons_self ..
    have hd := hso.days
    have hsound := hso.sound
    obtain ⟨_, hok⟩ := steps_main hv hi hso (hhead inp rfl)
    unfold Sim.run at hr
    cases hst : S.step inp s with
    | error e => simp [hst] at hr
    | ok p =>
      obtain ⟨s1, r1⟩ := p
      obtain ⟨hi', h1, h2, h3, h4, h5⟩ := hok s1 r1 hst
      simp only [hst, List.mem_cons] at hr
      rcases hr with rfl | hr
      · unfold Sim.step at hst
        cases hb : S.bounds inp.metric with
        | none => simp [hb] at hst
        | some b =>
          simp only [hb] at hst
          cases hso : Solver.step S.model s.solver (S.stepState inp b (S.pre inp b s.network)) with
          | error e => simp [hso] at hst
          | ok s' =>
            simp only [hso] at hst
            cases hx : inp.solve s'.lp with
            | none => simp [hx] at hst
            | some x =>
              simp only [hx] at hst
              cases hap : applySolution S.stateNet b inp.t (colFlow s' x) (S.pre inp b s.network) with
              | error e => simp [hap] at hst
              | ok post =>
                simp only [hap, Except.ok.injEq, Prod.mk.injEq] at hst
                obtain ⟨_, rfl⟩ := hst
                have := C86_optimal S.model hv.model hv.constant hv.factors S.sets hv.groups big negBig hbig s.solver s' hi.reach
                  (S.stepState inp b (S.pre inp b s.network)) (hd inp hmem) hso cost
                  (fun n hn h => (costIs_iff _ _ _).2 (hcost n hn h)) x (hsound inp hmem _ _ hx)
                  (hopt inp hmem _ _ hx)
                have hsh := shows hv hi inp b hb
                refine ⟨_, hsh, this.1, ?_, this.2⟩
                exact (C86_sound S.model hv.model hv.constant hv.factors S.sets hv.groups big negBig s.solver s' hi.reach
                  (S.stepState inp b (S.pre inp b s.network)) (hd inp hmem) hso x (hsound inp hmem _ _ hx)).2
      · exact ih s1 hi' hso.tail h5 (fun i h => hopt i (List.mem_cons_of_mem _ h)) r hr cost hcost

/-- **C60 (least cost).** If moreover the solver's answers are of least objective, the flows of every completed step have the
least total cost of all flows allowed in that step, over all choices of groups of exclusive aggregated nodes. -/
theorem C60_least_cost (hv : S.Valid) (inputs : List Inp) (hi : S.InputsOk inputs) (ho : Optimal inputs) (big negBig : ℚ)
    (hbig : 1000000 ≤ big) (s : SimState) (hs : S.initial big negBig = .ok s) :
    ∀ r ∈ (S.run inputs s).1, ∀ cost : TNode → ℚ,
      (∀ n ∈ S.net.nodes, n.incoming ≠ [] ∨ n.outgoing ≠ [] → S.CostIs r.inp.metric n (cost n)) →
      S.Allowed r.inp r.pre r.flow ∧ ∀ f, S.Allowed r.inp r.pre f → S.Within big negBig r.inp.metric f →
        S.totalCost cost r.flow ≤ S.totalCost cost f := by
  intro r hr cost hcost
  obtain ⟨st, hsh, hl⟩ := run_optimal hv hbig inputs s (inv_initial hv hs) (stepsOk hi)
    (fun inp h => Or.inl (headOk hi.index inp h)) ho r hr cost hcost
  exact ⟨(allowed_iff hv hsh _).1 hl.allowed, fun f hf1 hf2 => hl.least f ((allowed_iff hv hsh _).2 hf1) ((within_iff hsh _ _ _).2 hf2)⟩

/-- **C74 (runs).** What the theorems on merit order say of flows of least cost holds of the flows of every completed step of a
run of a network without exclusive aggregated nodes, with the volumes before the step. -/
theorem C74_run (hv : S.Valid) (hx : S.model.NoExclusivity) (inputs : List Inp) (hi : S.InputsOk inputs) (ho : Optimal inputs)
    (big negBig : ℚ) (hbig : 1000000 ≤ big) (s : SimState) (hs : S.initial big negBig = .ok s) :
    ∀ r ∈ (S.run inputs s).1, ∀ cost : TNode → ℚ,
      (∀ n ∈ S.net.nodes, n.incoming ≠ [] ∨ n.outgoing ≠ [] → S.CostIs r.inp.metric n (cost n)) →
      ∃ st, S.Shows r.inp r.pre st ∧ LeastCost S.model big negBig st cost r.flow := by
  intro r hr cost hcost
  obtain ⟨st, h1, h2⟩ := run_optimal hv hbig inputs s (inv_initial hv hs) (stepsOk hi)
    (fun inp h => Or.inl (headOk hi.index inp h)) ho r hr cost hcost
  exact ⟨st, h1, (C86_plain _ hx _ _).1 h2.allowed, h2.within, fun f h => h2.least f ((C86_plain _ hx _ _).2 h)⟩

/-! ## C61 -/

theorem stored_congr {s s' : NetworkState} (h : ∀ n ∈ S.net.nodes, n.kind = .storage → s.nodeVolume n.index = s'.nodeVolume n.index) :
    S.stored s = S.stored s' := by
  unfold Sim.stored
  congr 1
  apply List.map_congr_left
  intro n hn
  simp only [List.mem_filter, decide_eq_true_eq] at hn
  rw [h n hn.1 hn.2]

theorem stored_run (hv : S.Valid) (inputs : List Inp) : ∀ (s : NetworkState) (rs : List Record),
    (∀ inp ∈ inputs, inp.t.index ≠ 0) → S.RunOk s inputs rs → S.stored (lastState s rs) = S.stored s + netSupply S rs := by
  induction inputs with
  | nil =>
    intro s rs _ h
    cases rs with
    | nil => simp [lastState, netSupply]
    | cons r rs => exact absurd h id
  | cons inp rest ih =>
    intro s rs hne h
    cases rs with
    | nil => simp [lastState, netSupply]
    | cons r rs =>
      obtain ⟨h1, h2, h3, h4⟩ := h
      have hrec := ih r.post rs (fun i hi => hne i (List.mem_cons_of_mem _ hi)) h4
      have hlast : lastState s (r :: rs) = lastState r.post rs := lastState_cons ..
      rw [hlast, hrec, stored_step hv h3]
      have hpre : S.stored r.pre = S.stored s := by
        apply stored_congr
        intro n hn hk
        obtain ⟨_, _, _, h5⟩ := h2.storage n hn hk
        rw [if_neg (hne inp (List.mem_cons_self ..))] at h5
        exact h5
      rw [hpre]
      unfold netSupply
      simp only [List.map_cons, List.sum_cons, h1]
      ring

/-- **C61.** At the end of every simulation, and at every step on the way, the total volume stored is the sum of the initial
volumes, plus what all inputs have supplied, less what all outputs have received. -/
theorem C61_balance (hv : S.Valid) (first : Inp) (rest : List Inp) (hi : S.InputsOk (first :: rest)) (big negBig : ℚ) (s : SimState)
    (hs : S.initial big negBig = .ok s) (max : Nat → ℚ)
    (hmax : ∀ n ∈ S.net.nodes, n.kind = .storage → ValueIs first.metric (S.data n.index).maxVolume f64MAX (max n.index))
    (k : Nat) (hk : 0 < k) (hk' : k ≤ (S.run (first :: rest) s).1.length) :
    S.stored (lastState s.network ((S.run (first :: rest) s).1.take k)) =
      ((S.net.nodes.filter fun n => n.kind = .storage).map fun n => (S.iv first.metric n.index).get (max n.index)).sum +
        netSupply S ((S.run (first :: rest) s).1.take k) := by
  obtain ⟨hrun, _, _⟩ := C60_run hv (first :: rest) hi big negBig s hs
  have hidx := hi.index
  simp only [List.map_cons, List.length_cons, List.range_succ_eq_map, List.cons.injEq] at hidx
  have hne : ∀ inp ∈ rest, inp.t.index ≠ 0 := by
    intro inp hinp
    have : inp.t.index ∈ List.map Nat.succ (List.range rest.length) := by rw [← hidx.2]; exact List.mem_map_of_mem hinp
    obtain ⟨j, _, hj⟩ := List.mem_map.1 this
    omega
  have htake : ∀ (inputs : List Inp) (s : NetworkState) (rs : List Record) (k : Nat), S.RunOk s inputs rs → S.RunOk s inputs (rs.take k) := by
    intro inputs
    induction inputs with
    | nil =>
      intro s rs k h
      cases rs with
      | nil => simp [Sim.RunOk]
      | cons r rs => exact absurd h id
    | cons inp l ih =>
      intro s rs k h
      cases rs with
      | nil => simp [Sim.RunOk]
      | cons r rs =>
        cases k with
        | zero => simp [Sim.RunOk]
        | succ k =>
          obtain ⟨h1, h2, h3, h4⟩ := h
          exact ⟨h1, h2, h3, ih _ _ _ h4⟩
  cases hrs : (S.run (first :: rest) s).1 with
  | nil => rw [hrs] at hk'; simp at hk'; omega
  | cons r rs =>
    rw [hrs] at hrun
    obtain ⟨h1, h2, h3, h4⟩ := hrun
    obtain ⟨j, rfl⟩ : ∃ j, k = j + 1 := ⟨k - 1, by omega⟩
    rw [List.take_succ_cons]
    have hlast : lastState s.network (r :: rs.take j) = lastState r.post (rs.take j) := lastState_cons ..
    rw [hlast, stored_run hv rest r.post (rs.take j) hne (htake _ _ _ _ h4), stored_step hv h3]
    have hpre : S.stored r.pre = ((S.net.nodes.filter fun n => n.kind = .storage).map fun n => (S.iv first.metric n.index).get (max n.index)).sum := by
      unfold Sim.stored
      congr 1
      apply List.map_congr_left
      intro n hn
      simp only [List.mem_filter, decide_eq_true_eq] at hn
      obtain ⟨lo, hi', h5, h6⟩ := h2.storage n hn.1 hn.2
      rw [if_pos hidx.1] at h6
      have : hi' = max n.index := (VolumesAre.unique (lo := lo) (lo' := lo) h5 ⟨h5.1, hmax n hn.1 hn.2⟩).2
      rw [h6, this]
      rfl
    rw [hpre]
    unfold netSupply
    simp only [List.map_cons, List.sum_cons, h1]
    ring

/-! ## C62 -/

theorem runOk_get (inputs : List Inp) : ∀ (s : NetworkState) (rs : List Record), S.RunOk s inputs rs →
    ∀ (k : Nat) (r : Record), rs[k]? = some r → inputs[k]? = some r.inp ∧ S.StepOk r.inp r.pre r.flow r.post := by
  induction inputs with
  | nil =>
    intro s rs h k r hr
    cases rs with
    | nil => simp at hr
    | cons q rs => exact absurd h id
  | cons inp rest ih =>
    intro s rs h k r hr
    cases rs with
    | nil => simp at hr
    | cons q rs =>
      obtain ⟨h1, _, h3, h4⟩ := h
      cases k with
      | zero =>
        simp only [List.getElem?_cons_zero, Option.some.injEq] at hr
        subst hr
        subst h1
        exact ⟨rfl, h3⟩
      | succ k =>
        simp only [List.getElem?_cons_succ] at hr ⊢
        exact ih _ _ h4 k r hr

theorem nodeFlow_zero (n : TNode) : nodeFlow (fun _ => 0) n = 0 := by
  unfold nodeFlow
  cases n.kind <;> simp

theorem flowAt_zero (net : Verif.Topology.Network) (i : Nat) : flowAt net (fun _ => 0) i = 0 := by
  unfold flowAt
  cases net.nodes[i]? with
  | none => rfl
  | some n => simp [nodeFlow_zero]

theorem setFlow_zero (net : Verif.Topology.Network) (is : List Nat) : setFlow (flowAt net fun _ => 0) is = 0 := by
  unfold setFlow
  induction is with
  | nil => rfl
  | cons i is ih => simp only [List.map_cons, List.sum_cons, flowAt_zero, ih, add_zero]

theorem aggFlow_zero (net : Verif.Topology.Network) (a : AggNode) : aggFlow net (fun _ => 0) a = 0 := by
  unfold aggFlow
  induction a.nodes with
  | nil => rfl
  | cons i is ih => simp only [List.map_cons, List.sum_cons, setFlow_zero, ih, add_zero]

theorem vsUse_zero (net : Verif.Topology.Network) (v : VStore) : Solver.vsUse net (fun _ => 0) v = 0 := by
  unfold Solver.vsUse
  induction v.members with
  | nil => rfl
  | cons i is ih => rw [List.map_cons, List.sum_cons, flowAt_zero, mul_zero, ih, add_zero]

theorem atLeast_of {σ : Nat → Option ℚ} {m : Option Metric} {d v l : ℚ} (h : ValueIs σ m d l) (hl : l ≤ v) : AtLeast σ m d v := by
  cases m with
  | none => simp only [ValueIs] at h; subst h; exact hl
  | some m => exact ⟨l, h, hl⟩

theorem atMost_of {σ : Nat → Option ℚ} {m : Option Metric} {d v u : ℚ} (h : ValueIs σ m d u) (hu : v ≤ u) : AtMost σ m d v := by
  cases m with
  | none => simp only [ValueIs] at h; subst h; exact hu
  | some m => exact ⟨u, h, hu⟩

theorem use_zero (n : VSNode) (t : Timestep) : S.use n t (fun _ => 0) = 0 := by
  unfold Sim.use
  by_cases h : n.isActive t = true
  · rw [if_pos h]
    exact vsUse_zero S.net ⟨n.nodes.zip n.factors, none⟩
  · rw [if_neg h]

/-- No flow at all is allowed when the volumes are within their bounds. -/
theorem zero_allowed {inp : Inp} {pre : NetworkState} (hp : S.Present inp.metric) (hr : S.Relaxed inp.metric)
    (hvol : ∀ n ∈ S.net.nodes, n.kind = .storage → ∃ lo hi v,
      VolumesAre inp.metric (S.data n.index).minVolume (S.data n.index).maxVolume lo hi ∧ pre.nodeVolume n.index = .ok v ∧ lo ≤ v ∧ v ≤ hi)
    (hvs : ∀ k < S.vsNodes.length, ∃ v, pre.vsVolume k = .ok v)
    {big negBig : ℚ} (h1 : negBig ≤ 0) (h2 : 0 ≤ big) :
    S.Allowed inp pre (fun _ => 0) ∧ S.Within big negBig inp.metric (fun _ => 0) := by
  constructor
  · refine ⟨fun _ _ => le_refl _, fun n _ _ => by simp, ?_, ?_, ?_, ?_, ?_, fun _ => false, ?_, ?_, ?_⟩
    · intro n hn hk _
      rw [nodeFlow_zero]
      obtain ⟨⟨lo, hlo⟩, ⟨hi, hhi⟩⟩ := hp.flows n hn hk
      obtain ⟨a, b⟩ := hr.nodes n hn hk lo hi hlo hhi
      exact ⟨atLeast_iff.2 ⟨lo, hlo, a⟩, atMost_iff.2 ⟨hi, hhi, b⟩⟩
    · intro n hn hk
      rw [nodeFlow_zero, mul_zero]
      obtain ⟨lo, hi, v, hb, hv, hv1, hv2⟩ := hvol n hn hk
      exact ⟨lo, hi, v, hb, hv, by rwa [add_zero], by rwa [add_zero]⟩
    · intro a ha
      rw [aggFlow_zero]
      obtain ⟨⟨lo, hlo⟩, ⟨hi, hhi⟩⟩ := hp.aggs a ha
      obtain ⟨c, d⟩ := hr.aggs a ha lo hi hlo hhi
      exact ⟨atLeast_iff.2 ⟨lo, hlo, c⟩, atMost_iff.2 ⟨hi, hhi, d⟩⟩
    · intro a ha F hF
      obtain ⟨ps, h3, h4⟩ := hp.factors a ha F hF
      refine ⟨ps, h3, fun p hpp => ?_⟩
      obtain ⟨c, hc⟩ := Option.isSome_iff_exists.1 (h4 p hpp).1
      obtain ⟨d, hd⟩ := Option.isSome_iff_exists.1 (h4 p hpp).2
      refine ⟨c, d, hc, hd, ?_⟩
      rw [setFlow_zero, setFlow_zero, hr.factors a ha F ps hF h3 p hpp]
      ring
    · intro k n hn _
      have hlt := (List.getElem?_eq_some_iff.1 hn).1
      obtain ⟨lo, hi, hb⟩ := hp.vs k hlt
      obtain ⟨v, hv⟩ := hvs k hlt
      refine ⟨lo, hi, v, hb, hv, ?_, ?_⟩ <;> rw [use_zero, mul_zero]
      · exact le_max_right _ _
      · rw [neg_zero]; exact le_max_right _ _
    · intro a ha mn mx he
      rw [hr.groups a ha mn mx he]
      simp
    · intro g _ _ i _
      exact flowAt_zero S.net i
    · intro g _ h
      cases h
  · refine ⟨fun _ _ => h2, ?_, ?_, ?_, ?_⟩
    · intro n _ _
      rw [nodeFlow_zero]
      exact ⟨h1, h2⟩
    · intro a _
      rw [aggFlow_zero]
      exact ⟨h1, h2⟩
    · intro n _
      have : ((n.nodes.zip n.factors).map fun p => p.2 * flowAt S.net (fun _ => 0) p.1).sum = 0 :=
        vsUse_zero S.net ⟨n.nodes.zip n.factors, none⟩
      rw [this, neg_zero]
      exact ⟨h1, h2⟩
    · intro a ha F cps ps hF _ hps q hq _
      rw [hr.factors a ha F ps hF hps q.2 (List.of_mem_zip hq).2]
      exact ⟨h1, h2⟩

/-- **C62.** A simulation in which no flow is required runs to its end: if no node or aggregated node has a positive minimum or
a negative maximum flow, no right-hand side differs from zero, no group has to be active, volumes start within bounds that do not narrow, every value is
there, and the solver finds a solution whenever there is one, then every step completes. -/
theorem C62_completes (hv : S.Valid) (inputs : List Inp) (hi : S.InputsOk inputs) (hso : S.StorageOk inputs) (hc : Complete inputs)
    (hp : ∀ inp ∈ inputs, S.Present inp.metric) (hr : ∀ inp ∈ inputs, S.Relaxed inp.metric) (big negBig : ℚ) (h1 : negBig ≤ 0) (h2 : 1000000 ≤ big)
    (s : SimState) (hs : S.initial big negBig = .ok s) :
    ∃ s', (S.run inputs s).2 = .ok s' ∧ (S.run inputs s).1.length = inputs.length := by
  obtain ⟨hrun, hok, herr⟩ := C60_run hv inputs hi big negBig s hs
  cases hres : (S.run inputs s).2 with
  | ok s' => exact ⟨s', rfl, (hok s' hres).1⟩
  | error e =>
    exfalso
    obtain ⟨inp, hinp, hfail⟩ := herr e hres
    have hmem := List.mem_of_getElem? hinp
    cases e with
    | volumeBounds => exact hfail (hp inp hmem)
    | solve e => exact hfail (hp inp hmem)
    | state e => exact hfail
    | infeasible =>
      obtain ⟨_, hfail⟩ := hfail
      obtain ⟨pre, hcar, hno⟩ := hfail h2 (hc inp hmem)
      apply hno
      -- the record before, if the step is not the first
      have hprev : inp.t.index ≠ 0 → ∃ (j : Nat) (r : Record), (S.run inputs s).1.length = j + 1 ∧ inputs[j]? = some r.inp ∧
          S.StepOk r.inp r.pre r.flow r.post ∧ lastState s.network (S.run inputs s).1 = r.post := by
        intro h0
        have hlen : (S.run inputs s).1.length ≠ 0 := by
          intro hz
          rw [hz] at hinp
          exact h0 (headOk hi.index inp (by rw [← hinp, List.head?_eq_getElem?]))
        obtain ⟨j, hj⟩ : ∃ j, (S.run inputs s).1.length = j + 1 := ⟨_, (Nat.succ_pred_eq_of_ne_zero hlen).symm⟩
        obtain ⟨r, hr'⟩ : ∃ r, (S.run inputs s).1[j]? = some r := ⟨_, List.getElem?_eq_getElem (by omega)⟩
        obtain ⟨hin, hstep⟩ := runOk_get inputs _ _ hrun j r hr'
        refine ⟨j, r, hj, hin, hstep, ?_⟩
        unfold lastState
        rw [List.getLast?_eq_getElem?, hj]
        simp [hr']
      refine ⟨fun _ => 0, zero_allowed (hp inp hmem) (hr inp hmem) ?_ ?_ h1 (le_trans (by norm_num) h2)⟩
      · intro n hn hk
        obtain ⟨lo, hi', hb, hcase⟩ := hcar.storage n hn hk
        by_cases h0 : inp.t.index = 0
        · rw [if_pos h0] at hcase
          obtain ⟨c, d⟩ := hso.start inp hmem h0 n hn hk lo hi' hb
          exact ⟨lo, hi', _, hb, hcase, c, d⟩
        · rw [if_neg h0] at hcase
          obtain ⟨j, r, hj, hin, hstep, hlast⟩ := hprev h0
          obtain ⟨lo0, hi0, v, hb0, _, hv2, hv3, hv4⟩ := hstep.storage n hn hk
          rw [hlast, hv2] at hcase
          rw [hj] at hinp
          have hpw := hso.widen
          rw [List.pairwise_iff_getElem] at hpw
          obtain ⟨hj1, hj2⟩ := List.getElem?_eq_some_iff.1 hin
          obtain ⟨hk1, hk2⟩ := List.getElem?_eq_some_iff.1 hinp
          obtain ⟨c, d⟩ := hpw j (j + 1) hj1 hk1 (by omega) n hn hk lo0 hi0 lo hi' (by rw [hj2]; exact hb0) (by rw [hk2]; exact hb)
          exact ⟨lo, hi', _, hb, hcase, le_trans c hv3, le_trans hv4 d⟩
      · intro k hk
        obtain ⟨_, _, _, _, _, h, _⟩ := hcar.vs k _ (List.getElem?_eq_getElem hk)
        exact ⟨_, h⟩

end Verif.Simulation
