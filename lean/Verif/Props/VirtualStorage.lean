import Verif.Lemmas.VirtualStorage
import Verif.Lemmas.Calendar

/-! # C12, C13, C14, C15, C53: virtual storages -/

namespace Verif.State

open Verif.Calendar Verif.Time

/-! ## C12 -/

/-- **C12**, one step: if the flows satisfy the row of an active virtual storage and the volume before the solve is inside
the bounds, the volume after the step is inside the bounds and exactly the old one less the weighted use. -/
theorem C12_feasible_step {net : Net} {iv : Nat → InitialVolume} {inp : StepIn} {s s' : NetworkState}
    (hw : WellFormed net s) (h : step net iv inp s = .ok s') {k : Nat} {n : VSNode} {v : ℚ}
    (hn : net.vsNodes[k]? = some n) (hm : MembersOk net.kinds n) (hact : n.isActive inp.t = true)
    (hd : 0 < inp.t.days) (hv : (preSolve net iv inp s).vsVolume k = .ok v)
    (h1 : (inp.b.vs k).1 ≤ v) (h2 : v ≤ (inp.b.vs k).2)
    (hbal : ∀ i ∈ n.nodes, net.kinds[i]? = some .link → inSum net.edges inp.flow i = outSum net.edges inp.flow i)
    (hrow : VSRow net.kinds net.edges n v (inp.b.vs k).1 (inp.b.vs k).2 inp.t.days inp.flow) :
    s'.vsVolume k = .ok (v - vsUse net.kinds net.edges n inp.flow * inp.t.days) ∧
    (inp.b.vs k).1 ≤ v - vsUse net.kinds net.edges n inp.flow * inp.t.days ∧
    v - vsUse net.kinds net.edges n inp.flow * inp.t.days ≤ (inp.b.vs k).2 := by
  have hbal' : ∀ i ∈ n.nodes, net.kinds[i]? ≠ some .input → net.kinds[i]? ≠ some .output →
      inSum net.edges inp.flow i = outSum net.edges inp.flow i := by
    intro i hi ha hb
    apply hbal i hi
    obtain ⟨hl, hs⟩ := hm i hi
    rw [List.getElem?_eq_getElem hl] at ha hb hs ⊢
    cases hk : net.kinds[i] <;> simp_all
  obtain ⟨b1, b2⟩ := vsRow_bounds hd h1 h2 hbal' hrow
  refine ⟨?_, b1, b2⟩
  have hk : k < s.vs.length := by
    rw [hw.vs]
    by_contra hc
    rw [List.getElem?_eq_none (by omega)] at hn
    cases hn
  have hsk : s.vs[k]? = some s.vs[k] := List.getElem?_eq_getElem hk
  have hpre : (preSolve net iv inp s).vs[k]? = some (n.before inp.t (inp.b.vs k).2 s.vs[k]) := by
    simp [preSolve, vsBefore, hn, hk]
  unfold NetworkState.vsVolume at hv
  rw [hpre] at hv
  simp only [Except.ok.injEq] at hv
  obtain ⟨v', hv', hr⟩ := step_vs hw h hn hsk hm
  simp only [hact, if_true, hv] at hr
  obtain ⟨_, _, _, r4, _⟩ := hr
  rw [min_eq_right b2, max_eq_right b1] at r4
  simp [NetworkState.vsVolume, hv', r4]

/-- **C12**, no panic: if the flows satisfy the rows of all storage nodes and all active virtual storages, the volumes of
virtual storages are inside their bounds at the time of the solve, and links are balanced, then the step completes. -/
theorem C12_feasible_completes {net : Net} {iv : Nat → InitialVolume} {inp : StepIn} {s : NetworkState}
    (hw : WellFormed net s) (hd : 0 < inp.t.days)
    (hm : ∀ n ∈ net.vsNodes, MembersOk net.kinds n)
    (hbal : ∀ i, net.kinds[i]? = some .link → inSum net.edges inp.flow i = outSum net.edges inp.flow i)
    (hrow : ∀ (i : Nat) (v : ℚ), net.kinds[i]? = some .storage → (preSolve net iv inp s).nodeVolume i = .ok v →
      StorageRow net.edges i v inp)
    (hvs : ∀ (k : Nat) (n : VSNode) (v : ℚ), net.vsNodes[k]? = some n → (preSolve net iv inp s).vsVolume k = .ok v →
      (inp.b.vs k).1 ≤ v ∧ v ≤ (inp.b.vs k).2 ∧
      (n.isActive inp.t = true → VSRow net.kinds net.edges n v (inp.b.vs k).1 (inp.b.vs k).2 inp.t.days inp.flow)) :
    ∃ s', step net iv inp s = .ok s' := by
  -- the part without virtual storages
  let net0 : Net := { net with vsNodes := [] }
  let s0 : NetworkState := { s with vs := [] }
  have hw0 : WellFormed net0 s0 := ⟨hw.nodes, rfl, hw.edge, hw.nodup⟩
  obtain ⟨r, hr⟩ := C11_feasible_completes (net := net0) (iv := iv) (inp := inp) (s := s0) hw0 rfl hd hrow
  obtain ⟨s1, h1, h2⟩ := applySolution_ok hr
  obtain ⟨_, c1, _, _, _⟩ := complete_ok h2
  -- the same for the whole network
  have hlen : (preSolve net iv inp s).nodes.length = net.kinds.length := by simp [preSolve, nodesBefore, hw.nodes]
  obtain ⟨s2, hs2⟩ := addFlows_ok inp.t.days (net.edges.map fun e => (e, inp.flow e.index))
    (preSolve net iv inp s).reset (by
      intro p hp
      obtain ⟨e, he, rfl⟩ := List.mem_map.1 hp
      have := hw.edge e he
      simp only [NetworkState.reset, List.length_map, hlen]
      rw [← hw.nodes]
      exact this)
  have hnodes : s2.nodes = s1.nodes := by
    apply List.ext_getElem?
    intro i
    rw [(afterFlows hs2).2.2.2.1 i, (afterFlows h1).2.2.2.1 i]
    rfl
  have hfin : finaliseNodes inp.b.node 0 net.kinds s2.nodes = .ok r.nodes := by rw [hnodes]; exact c1
  have hflows := finalised_flows hlen hs2 hfin
  have hvlen : s2.vs.length = net.vsNodes.length := by
    rw [(afterFlows hs2).2.2.1, List.length_map]
    simp [preSolve, vsBefore, hw.vs]
  have hupd : ∀ (j : Nat) (n : VSNode) (v : VSState), net.vsNodes[j]? = some n → s2.vs[j]? = some v →
      updateVS net.kinds r.nodes inp.t n v = .ok (if n.isActive inp.t then v.addOut (vsUse net.kinds net.edges n inp.flow) inp.t else v) := by
    intro j n v hj hv
    have hmem : ∀ p ∈ n.nodesWithFactors, p.1 < net.kinds.length ∧ net.kinds[p.1]? ≠ some .storage :=
      fun p hp => hm n (List.mem_of_getElem? hj) p.1 (List.of_mem_zip hp).1
    have hvf := vsFlow_eq hflows n.nodesWithFactors hmem
    have huse : ((n.nodesWithFactors).map fun (i, f) => f * memberUse net.kinds net.edges inp.flow i).sum =
        vsUse net.kinds net.edges n inp.flow := rfl
    rw [huse] at hvf
    unfold updateVS
    rw [hvf]
    by_cases ha : n.isActive inp.t = true <;> simp [ha]
  obtain ⟨vs1, hvs1⟩ := updateAllVS_ok net.kinds r.nodes inp.t net.vsNodes s2.vs
    (fun j n v hj hv => ⟨_, hupd j n v hj hv⟩)
  have hv1len := (updateAllVS_spec _ _ _ _ _ _ hvs1).1
  obtain ⟨vs2, hvs2⟩ := finaliseVS_ok inp.b.vs net.vsNodes 0 vs1 (by omega) (by
    intro j n u hj hu
    simp only [Nat.zero_add]
    have hjl : j < s2.vs.length := by
      rw [← hv1len]
      by_contra hc
      rw [List.getElem?_eq_none (by omega)] at hu
      cases hu
    obtain ⟨u', hu', hup⟩ := (updateAllVS_spec _ _ _ _ _ _ hvs1).2 j n _ hj (List.getElem?_eq_getElem hjl)
    rw [hu] at hu'
    cases hu'
    rw [hupd j n _ hj (List.getElem?_eq_getElem hjl)] at hup
    simp only [Except.ok.injEq] at hup
    -- volume before the solve
    have hsv : s2.vs[j]? = (preSolve net iv inp s).vs[j]?.map VSState.reset := by
      rw [(afterFlows hs2).2.2.1, List.getElem?_map]
    rw [List.getElem?_eq_getElem hjl] at hsv
    cases hp : (preSolve net iv inp s).vs[j]? with
    | none => simp [hp] at hsv
    | some w =>
      simp only [hp, Option.map_some, Option.some.injEq] at hsv
      obtain ⟨b1, b2, b3⟩ := hvs j n w.storage.volume hj (by simp [NetworkState.vsVolume, hp])
      have htol : (0 : ℚ) ≤ tol := by norm_num [tol]
      have hraw : (inp.b.vs j).1 ≤ u.storage.volume ∧ u.storage.volume ≤ (inp.b.vs j).2 := by
        by_cases ha : n.isActive inp.t = true
        · rw [if_pos ha] at hup
          subst hup
          have hmo := hm n (List.mem_of_getElem? hj)
          have := vsRow_bounds hd b1 b2 (by
            intro i hi h1 h2
            apply hbal i
            obtain ⟨hl, hs⟩ := hmo i hi
            rw [List.getElem?_eq_getElem hl] at h1 h2 hs ⊢
            cases hk : net.kinds[i] <;> simp_all) (b3 ha)
          simp only [hsv, VSState.addOut, StorageState.addOut, VSState.reset, StorageState.reset]
          exact this
        · rw [if_neg ha] at hup
          subst hup
          rw [hsv]
          exact ⟨b1, b2⟩
      obtain ⟨st, hst⟩ : ∃ st, u.storage.finalise (inp.b.vs j).1 (inp.b.vs j).2 = .ok st :=
        ⟨⟨max (inp.b.vs j).1 (min (inp.b.vs j).2 u.storage.volume), (inp.b.vs j).2, u.storage.flows⟩,
          (finalise_ok_iff _ _ _ _).2 ⟨by linarith, by linarith, by linarith, rfl, rfl, rfl⟩⟩
      exact ⟨{ u with storage := st }, by simp [VSState.finalise, hst]⟩)
  exact ⟨{ s2 with nodes := r.nodes, vs := vs2 }, by simp [step, applySolution, hs2, complete, hfin, hvs1, hvs2]⟩

/-- **C12**, inactive: an inactive virtual storage keeps its reset volume whatever flows pass through its members. -/
theorem C12_inactive {net : Net} {iv : Nat → InitialVolume} {inp : StepIn} {s s' : NetworkState}
    (hw : WellFormed net s) (h : step net iv inp s = .ok s') {k : Nat} {n : VSNode} {v : ℚ}
    (hn : net.vsNodes[k]? = some n) (hm : MembersOk net.kinds n) (hact : n.isActive inp.t = false)
    (hv : (preSolve net iv inp s).vsVolume k = .ok v) (h1 : (inp.b.vs k).1 ≤ v) (h2 : v ≤ (inp.b.vs k).2) :
    s'.vsVolume k = .ok v := by
  have hk : k < s.vs.length := by
    rw [hw.vs]
    by_contra hc
    rw [List.getElem?_eq_none (by omega)] at hn
    cases hn
  have hpre : (preSolve net iv inp s).vs[k]? = some (n.before inp.t (inp.b.vs k).2 s.vs[k]) := by
    simp [preSolve, vsBefore, hn, hk]
  unfold NetworkState.vsVolume at hv
  rw [hpre] at hv
  simp only [Except.ok.injEq] at hv
  obtain ⟨v', hv', hr⟩ := step_vs hw h hn (List.getElem?_eq_getElem hk) hm
  simp only [hact, hv] at hr
  obtain ⟨_, _, _, r4, _⟩ := hr
  simp only [Bool.false_eq_true, if_false, zero_mul, sub_zero] at r4
  rw [min_eq_right h2, max_eq_right h1] at r4
  simp [NetworkState.vsVolume, hv', r4]

/-- Input, link and output with a virtual storage on the link. -/
def exVSNode (window : Option Nat) (rv : ResetVolume) : VSNode :=
  { nodes := [1], factors := [2], initialVolume := .absolute 60, reset := .never, resetVolume := rv,
    rollingWindow := window, activePeriod := .always }

/-- The network of the example. -/
def exVSNet (window : Option Nat) (rv : ResetVolume) : Net :=
  { kinds := [.input, .link, .output], edges := [⟨0, 0, 1⟩, ⟨1, 1, 2⟩], vsNodes := [exVSNode window rv] }

/-- State of the example. -/
def exVSState (window : Option Nat) : NetworkState :=
  { nodes := [.flow ⟨0, 0⟩, .flow ⟨0, 0⟩, .flow ⟨0, 0⟩], edges := [0, 0], vs := [.new 60 100 window] }

/-- Step `k` of `days` days of the example with flow `q`. -/
def exVSIn (k days : Nat) (q : ℚ) : StepIn :=
  { t := ⟨⟨⟨2020, 1, k + 1⟩, 0⟩, k, 86400000000000 * days⟩, b := ⟨fun _ => (0, 0), fun _ => (0, 100)⟩, flow := fun _ => q }

example : WellFormed (exVSNet none .initial) (exVSState none) := ⟨rfl, rfl, by decide, by decide⟩

example : MembersOk (exVSNet none .initial).kinds (exVSNode none .initial) := by unfold MembersOk; decide

example : VSRow (exVSNet none .initial).kinds (exVSNet none .initial).edges (exVSNode none .initial) 60 0 100 1 (fun _ => 5) := by
  constructor <;> decide +kernel

example : (run (exVSNet none .initial) (fun _ => .absolute 0) [exVSIn 0 1 5, exVSIn 1 1 10] (exVSState none)).map
    (·.vsVolume 0) = .ok (.ok 30) := by decide +kernel

/-! ## C53 -/

/-- **C53**, solvers that complete the timestep: the virtual storage is depleted by the weighted use of its members. -/
theorem C53_completed_partial {net : Net} {iv : Nat → InitialVolume} {inp : StepIn} {s s' : NetworkState}
    (hw : WellFormed net s) (h : step net iv inp s = .ok s') {k : Nat} {n : VSNode} {v : ℚ}
    (hn : net.vsNodes[k]? = some n) (hm : MembersOk net.kinds n) (hact : n.isActive inp.t = true)
    (hv : (preSolve net iv inp s).vsVolume k = .ok v) :
    ∃ v', s'.vsVolume k = .ok v' ∧
      v' = max (inp.b.vs k).1 (min (inp.b.vs k).2 (v - vsUse net.kinds net.edges n inp.flow * inp.t.days)) ∧
      |v' - (v - vsUse net.kinds net.edges n inp.flow * inp.t.days)| ≤ tol := by
  have hk : k < s.vs.length := by
    rw [hw.vs]
    by_contra hc
    rw [List.getElem?_eq_none (by omega)] at hn
    cases hn
  have hpre : (preSolve net iv inp s).vs[k]? = some (n.before inp.t (inp.b.vs k).2 s.vs[k]) := by
    simp [preSolve, vsBefore, hn, hk]
  unfold NetworkState.vsVolume at hv
  rw [hpre] at hv
  simp only [Except.ok.injEq] at hv
  obtain ⟨v', hv', hr⟩ := step_vs hw h hn (List.getElem?_eq_getElem hk) hm
  simp only [hact, if_true, hv] at hr
  obtain ⟨r1, r2, r3, r4, _⟩ := hr
  refine ⟨v'.storage.volume, by simp [NetworkState.vsVolume, hv'], r4, ?_⟩
  have htol : (0 : ℚ) ≤ tol := by norm_num [tol]
  rw [r4, abs_le]
  rcases le_total (inp.b.vs k).2 (v - vsUse net.kinds net.edges n inp.flow * inp.t.days) with hc | hc
  · rw [min_eq_left hc, max_eq_right r3]
    constructor <;> linarith
  · rw [min_eq_right hc]
    rcases le_total (inp.b.vs k).1 (v - vsUse net.kinds net.edges n inp.flow * inp.t.days) with hd | hd
    · rw [max_eq_right hd]; constructor <;> linarith
    · rw [max_eq_left hd]; constructor <;> linarith

/-- A step with an interior point solver. -/
def stepIpm (net : Net) (iv : Nat → InitialVolume) (inp : StepIn) (s : NetworkState) : Except Err NetworkState :=
  applySolutionIpm net inp.t inp.flow (preSolve net iv inp s)

/-- **C53**, concrete difference: the same flows leave 50 with a completing solver and 60 with an interior point one. -/
theorem C53_solvers_differ_refuted :
    (step (exVSNet none .initial) (fun _ => .absolute 0) (exVSIn 0 1 5) (exVSState none)).map (·.vsVolume 0) = .ok (.ok 50) ∧
    (stepIpm (exVSNet none .initial) (fun _ => .absolute 0) (exVSIn 0 1 5) (exVSState none)).map (·.vsVolume 0) = .ok (.ok 60) := by
  constructor <;> decide +kernel

/-! ## C13 -/

theorem lastN_append {w : Nat} (h : List ℚ) (q : ℚ) (hl : h.length = w) (hw : 0 < w) :
    lastN w (h ++ [q]) = h.tail ++ [q] := by
  unfold lastN
  rw [List.length_append, List.length_singleton, hl]
  have : w + 1 - w = 1 := by omega
  rw [this]
  cases h with
  | nil => simp at hl; omega
  | cons a t => simp

theorem lastN_lastN_append (w : Nat) (a : List ℚ) (q : ℚ) (ha : w ≤ a.length) :
    lastN w (lastN w a ++ [q]) = lastN w (a ++ [q]) := by
  unfold lastN
  have hl : (a.drop (a.length - w)).length = w := by simp; omega
  rw [List.length_append, hl, List.length_append, List.length_singleton]
  rcases Nat.eq_zero_or_pos w with rfl | hw
  · simp
  · have e1 : w + 1 - w = 1 := by omega
    have e2 : a.length + 1 - w = (a.length - w) + 1 := by omega
    rw [e1, e2, List.drop_append_of_le_length (by omega), List.drop_append_of_le_length (by omega), List.drop_drop]

/-- The use of a virtual storage in each step. -/
def uses (net : Net) (n : VSNode) (inputs : List StepIn) : List ℚ :=
  inputs.map fun inp => vsUse net.kinds net.edges n inp.flow

/-- Configuration of a rolling licence for which the identity holds: never reset, always active, reset to the initial
volume. -/
structure RollingCfg (n : VSNode) (w : Nat) : Prop where
  pos : 0 < w
  window : n.rollingWindow = some w
  reset : n.reset = .never
  volume : n.resetVolume = .initial
  active : n.activePeriod = .always

/-- All steps have the same length and the same bounds. -/
def SameStep (k : Nat) (d lo M : ℚ) (inp : StepIn) : Prop :=
  inp.t.days = d ∧ (inp.b.vs k).1 = lo ∧ (inp.b.vs k).2 = M

/-- Abstractions are non-negative and never more than the licence has left: `M` less the last `w - 1` abstractions. -/
def WithinLicence (w : Nat) (d lo M : ℚ) : List ℚ → List ℚ → Prop
  | _, [] => True
  | past, q :: rest => 0 ≤ q ∧ d * q ≤ M - d * (lastN (w - 1) past).sum - lo ∧ WithinLicence w d lo M (past ++ [q]) rest

theorem rolling_isActive {n : VSNode} {w : Nat} (hc : RollingCfg n w) (t : Timestep) : n.isActive t = true := by
  simp [VSNode.isActive, hc.active, ActivePeriod.isActive]

/-- Steps after the first one. -/
theorem rolling_run {net : Net} {iv : Nat → InitialVolume} {k w : Nat} {n : VSNode} {d lo M : ℚ}
    (hn : net.vsNodes[k]? = some n) (hm : MembersOk net.kinds n) (hc : RollingCfg n w) (hd : 0 ≤ d) :
    ∀ (inputs : List StepIn) (s s' : NetworkState) (past : List ℚ) (v : VSState), WellFormed net s →
      (∀ inp ∈ inputs, inp.t.index ≠ 0 ∧ SameStep k d lo M inp) →
      w ≤ past.length → (∀ q ∈ past, 0 ≤ q) →
      s.vs[k]? = some v → v.history = some ⟨lastN w past, w⟩ → v.storage.volume = M - d * (lastN w past).sum →
      WithinLicence w d lo M past (uses net n inputs) → run net iv inputs s = .ok s' →
      ∃ v', s'.vs[k]? = some v' ∧ v'.history = some ⟨lastN w (past ++ uses net n inputs), w⟩ ∧
        v'.storage.volume = M - d * (lastN w (past ++ uses net n inputs)).sum := by
  intro inputs
  induction inputs with
  | nil =>
    intro s s' past v _ _ _ _ hv hh hvol _ h
    simp only [run, Except.ok.injEq] at h
    subst h
    exact ⟨v, hv, by simpa [uses] using hh, by simpa [uses] using hvol⟩
  | cons inp rest ih =>
    intro s s' past v hw hall hlen hnn hv hh hvol hlic h
    simp only [run] at h
    cases hst : step net iv inp s with
    | error e => simp [hst] at h
    | ok s1 =>
      simp only [hst] at h
      obtain ⟨hidx, hd1, hlo, hM⟩ := hall inp (by simp)
      obtain ⟨v1, hv1, hr⟩ := step_vs hw hst hn hv hm
      obtain ⟨q, hq⟩ : ∃ q, q = vsUse net.kinds net.edges n inp.flow := ⟨_, rfl⟩
      have hu : uses net n (inp :: rest) = q :: uses net n rest := by simp [uses, hq]
      rw [hu] at hlic
      obtain ⟨l1, l2, l3⟩ := hlic
      -- shape of the history
      have hll : (lastN w past).length = w := by simp [lastN]; omega
      obtain ⟨a, t, hat⟩ : ∃ a t, lastN w past = a :: t := by
        cases hp : lastN w past with
        | nil => rw [hp] at hll; have := hc.pos; simp at hll; omega
        | cons a t => exact ⟨a, t, rfl⟩
      have htail : t = lastN (w - 1) past := by
        have h0 : t = (lastN w past).tail := by rw [hat]; rfl
        rw [h0]
        have e : past.length - (w - 1) = past.length - w + 1 := by have := hc.pos; omega
        unfold lastN
        rw [e, List.tail_drop]
      -- state before the solve
      have hnr : n.doReset inp.t v.lastReset = false := by
        have : inp.t.isFirst = false := by simp [Timestep.isFirst, hidx]
        simp [VSNode.doReset, this, rolling_isActive hc, hc.reset]
      have hpop : (⟨a :: t, w⟩ : History).popFlow = (a, ⟨t, w⟩) := by
        rw [hat] at hll
        unfold History.popFlow
        rw [if_pos (by simp only; omega)]
      have hbef : n.before inp.t (inp.b.vs k).2 v =
          { v with storage := v.storage.addIn a inp.t.days, history := some ⟨t, w⟩ } := by
        unfold VSNode.before
        rw [hnr]
        simp only [Bool.false_eq_true, if_false, hc.window, Option.isSome_some, if_true, VSState.recover, hh, hat, hpop]
      rw [hbef] at hr
      simp only [rolling_isActive hc, if_true, StorageState.addIn, ← hq, hd1, hlo, hM, Option.map_some] at hr
      obtain ⟨_, _, r3, r4, _, r6⟩ := hr
      have hsum : (lastN w past).sum = a + t.sum := by rw [hat]; simp
      have hraw : v.storage.volume + a * d - q * d = M - d * (t ++ [q]).sum := by
        rw [hvol, hsum, List.sum_append]; simp; ring
      have hmem : ∀ x ∈ t, 0 ≤ x := by
        intro x hx
        apply hnn
        have : x ∈ lastN w past := by rw [hat]; simp [hx]
        exact List.mem_of_mem_drop this
      have hge : lo ≤ v.storage.volume + a * d - q * d := by
        rw [hraw, htail, List.sum_append]; simp; linarith
      have hle : v.storage.volume + a * d - q * d ≤ M := by
        rw [hraw]
        have h0 : 0 ≤ (t ++ [q]).sum := by
          apply List.sum_nonneg
          intro x hx
          rcases List.mem_append.1 hx with hx | hx
          · exact hmem x hx
          · simp only [List.mem_singleton] at hx; rw [hx]; exact l1
        have := mul_nonneg hd h0
        linarith
      rw [min_eq_right hle, max_eq_right hge, hraw] at r4
      have hnew : lastN w (past ++ [q]) = t ++ [q] := by
        rw [← lastN_lastN_append w past q hlen, lastN_append _ _ hll hc.pos, hat]; rfl
      have := ih s1 s' (past ++ [q]) v1 (step_wellFormed hw hst) (fun x hx => hall x (by simp [hx]))
        (by simp; omega)
        (fun x hx => by
          rcases List.mem_append.1 hx with hx | hx
          · exact hnn x hx
          · simp only [List.mem_singleton] at hx; rw [hx]; exact l1)
        hv1 (by rw [r6, hnew]; rfl) (by rw [r4, hnew]) l3 h
      rw [hu]
      simpa [List.append_assoc] using this

/-- **C13** (partial). For a rolling licence of `w` steps that is never reset, always active and starts from its initial
volume, with equal steps, and either daily steps or a full initial volume: after every run the volume is exactly the
maximum less the last `w` abstractions, where the time before the run counts as uniform abstraction of what is missing.
So an abstraction of step `j` is available again in step `j + w` and not before, and the volume stays inside the bounds.

Missing from the full statement: reset to the maximum volume, and steps of other lengths, see the refutations below. -/
theorem C13_rolling_window_partial {net : Net} {iv : Nat → InitialVolume} {k w : Nat} {n : VSNode} {d lo M : ℚ}
    (hn : net.vsNodes[k]? = some n) (hm : MembersOk net.kinds n) (hc : RollingCfg n w) (hd : 0 ≤ d)
    (first : StepIn) (rest : List StepIn) (s s' : NetworkState) (hw : WellFormed net s)
    (hf : first.t.index = 0) (hr : ∀ inp ∈ rest, inp.t.index ≠ 0)
    (hsame : ∀ inp ∈ first :: rest, SameStep k d lo M inp)
    (hI : n.initialVolume.get M ≤ M) (hdI : d = 1 ∨ n.initialVolume.get M = M)
    (v : VSState) (hv : s.vs[k]? = some v) (hh : ∃ fl, v.history = some ⟨fl, w⟩)
    (hlic : WithinLicence w d lo M (List.replicate w ((M - n.initialVolume.get M) / w)) (uses net n (first :: rest)))
    (h : run net iv (first :: rest) s = .ok s') :
    s'.vsVolume k = .ok (M - d * (lastN w (List.replicate w ((M - n.initialVolume.get M) / w) ++ uses net n (first :: rest))).sum) := by
  simp only [run] at h
  cases hst : step net iv first s with
  | error e => simp [hst] at h
  | ok s1 =>
    simp only [hst] at h
    obtain ⟨hd1, hlo, hM⟩ := hsame first (by simp)
    obtain ⟨v1, hv1, hr1⟩ := step_vs hw hst hn hv hm
    obtain ⟨f, hfd⟩ : ∃ f, f = (M - n.initialVolume.get M) / (w : ℚ) := ⟨_, rfl⟩
    obtain ⟨I, hId⟩ : ∃ I, I = n.initialVolume.get M := ⟨_, rfl⟩
    obtain ⟨q, hq⟩ : ∃ q, q = vsUse net.kinds net.edges n first.flow := ⟨_, rfl⟩
    have hu : uses net n (first :: rest) = q :: uses net n rest := by simp [uses, hq]
    rw [hu, ← hfd] at hlic ⊢
    obtain ⟨l1, l2, l3⟩ := hlic
    have hwpos : (0 : ℚ) < w := by exact_mod_cast hc.pos
    have hf0 : 0 ≤ f := by
      rw [hfd]
      exact div_nonneg (by linarith) (le_of_lt hwpos)
    have hfw : (w : ℚ) * f = M - I := by rw [hfd, hId]; field_simp
    obtain ⟨w', hw'⟩ : ∃ w', w = w' + 1 := ⟨w - 1, by have := hc.pos; omega⟩
    obtain ⟨fl, hh⟩ := hh
    have hfirst : first.t.isFirst = true := by simp [Timestep.isFirst, hf]
    have hreset : n.doReset first.t v.lastReset = true := by simp [VSNode.doReset, hfirst]
    have hbef : n.before first.t (first.b.vs k).2 v =
        { lastReset := some first.t.date, storage := (v.storage.setVolume I M).addIn f first.t.days,
          history := some ⟨List.replicate w' f, w⟩ } := by
      unfold VSNode.before
      rw [hreset]
      simp only [if_true, hc.window, Option.isSome_some, VSNode.applyReset, hc.volume, VSState.resetVolume,
        VSState.resetHistory, VSState.recover, hh, Option.map_some, History.reset, hM, ← hId]
      rw [← hId] at hfd
      rw [← hfd, hw']
      simp only [List.replicate_succ, History.popFlow, List.length_cons, List.length_replicate, Nat.le_refl, if_true]
    rw [hbef] at hr1
    simp only [rolling_isActive hc, if_true, StorageState.addIn, StorageState.setVolume, ← hq, hd1, hlo, hM,
      Option.map_some] at hr1
    obtain ⟨_, _, r3, r4, _, r6⟩ := hr1
    have hI' : I + f * d - q * d = M - d * (List.replicate w' f ++ [q]).sum := by
      rw [List.sum_append, List.sum_replicate]
      simp only [List.sum_cons, List.sum_nil, nsmul_eq_mul, add_zero]
      rw [hw'] at hfw
      push_cast at hfw
      rcases hdI with hone | hfull
      · rw [hone]; linarith
      · rw [← hId] at hfull
        have hz : f = 0 := by
          have h1 : ((w' : ℚ) + 1) * f = 0 := by rw [hfw, hfull]; ring
          rcases mul_eq_zero.1 h1 with h2 | h2
          · have : (0 : ℚ) ≤ (w' : ℚ) := by exact_mod_cast Nat.zero_le w'
            linarith
          · exact h2
        rw [hz, hfull]; ring
    have hlast : lastN (w - 1) (List.replicate w f) = List.replicate w' f := by
      unfold lastN
      rw [hw']
      simp
    have hge : lo ≤ I + f * d - q * d := by
      rw [hI', List.sum_append]
      rw [hlast] at l2
      simp only [List.sum_cons, List.sum_nil, add_zero]; linarith
    have hle : I + f * d - q * d ≤ M := by
      rw [hI']
      have h0 : 0 ≤ (List.replicate w' f ++ [q]).sum := by
        apply List.sum_nonneg
        intro x hx
        rcases List.mem_append.1 hx with hx | hx
        · rw [List.eq_of_mem_replicate hx]; exact hf0
        · simp only [List.mem_singleton] at hx; rw [hx]; exact l1
      have := mul_nonneg hd h0
      linarith
    rw [min_eq_right hle, max_eq_right hge, hI'] at r4
    have hnew : lastN w (List.replicate w f ++ [q]) = List.replicate w' f ++ [q] := by
      rw [lastN_append _ _ (by simp) hc.pos, hw']; rfl
    obtain ⟨v', hv', hh', hvol'⟩ := rolling_run hn hm hc hd rest s1 s' (List.replicate w f ++ [q]) v1
      (step_wellFormed hw hst) (fun x hx => ⟨hr x hx, hsame x (by simp [hx])⟩) (by simp)
      (fun x hx => by
        rcases List.mem_append.1 hx with hx | hx
        · rw [List.eq_of_mem_replicate hx]; exact hf0
        · simp only [List.mem_singleton] at hx; rw [hx]; exact l1)
      hv1 (by rw [r6, hnew]; rfl) (by rw [r4, hnew]) l3 h
    simp [NetworkState.vsVolume, hv', hvol', List.append_assoc]

example : RollingCfg (exVSNode (some 4) .initial) 4 := ⟨by decide, rfl, rfl, rfl, rfl⟩

/-- Window 4, maximum 100, initial 60: three steps with uses 10, 20 and 0. Past abstractions count 10 each. -/
example : (run (exVSNet (some 4) .initial) (fun _ => .absolute 0) [exVSIn 0 1 5, exVSIn 1 1 10, exVSIn 2 1 0]
    (exVSState (some 4))).map (·.vsVolume 0) = .ok (.ok (100 - (10 + 10 + 20 + 0))) := by decide +kernel

example : WithinLicence 4 1 0 100 (List.replicate 4 10)
    (uses (exVSNet (some 4) .initial) (exVSNode (some 4) .initial) [exVSIn 0 1 5, exVSIn 1 1 10, exVSIn 2 1 0]) := by
  refine ⟨?_, ?_, ?_, ?_, ?_, ?_, trivial⟩ <;> decide +kernel

/-- **C13** fails with reset to the maximum volume: the history is filled as if the storage were at its initial volume, so
the first recovery lifts the volume above the maximum, and without any abstraction the run panics. -/
theorem C13_reset_to_max_refuted :
    (preSolve (exVSNet (some 4) .max) (fun _ => .absolute 0) (exVSIn 0 1 0) (exVSState (some 4))).vsVolume 0 = .ok 110 ∧
    run (exVSNet (some 4) .max) (fun _ => .absolute 0) [exVSIn 0 1 0] (exVSState (some 4)) = .error .panicAboveMax := by
  constructor <;> decide +kernel

/-- **C13** fails for steps longer than a day when the storage does not start full: the missing volume is stored in the
history as if it were a flow and recovered multiplied by the length of the step. -/
theorem C13_long_steps_refuted :
    (preSolve (exVSNet (some 4) .initial) (fun _ => .absolute 0) (exVSIn 0 7 0) (exVSState (some 4))).vsVolume 0 = .ok 130 ∧
    run (exVSNet (some 4) .initial) (fun _ => .absolute 0) [exVSIn 0 7 0] (exVSState (some 4)) = .error .panicAboveMax := by
  constructor <;> decide +kernel

/-- **C13** fails for steps of different length: ten units abstracted in a step of one day are returned as twenty in a
step of two days. -/
theorem C13_unequal_steps_refuted :
    (run { exVSNet (some 1) .initial with vsNodes := [{ exVSNode (some 1) .initial with initialVolume := .absolute 100 }] }
      (fun _ => .absolute 0) [exVSIn 0 1 5, exVSIn 1 2 0] (exVSState (some 1))) = .error .panicAboveMax := by
  decide +kernel

/-! ## C15 -/

theorem slot_lt {m d m' d' : Nat} (h1 : 1 ≤ m) (h2 : m ≤ 12) (h1' : 1 ≤ m') (h2' : m' ≤ 12)
    (hd' : 1 ≤ d') (hl : d ≤ daysInMonth 2020 m) (hlt : m < m' ∨ (m = m' ∧ d < d')) :
    slot m d < slot m' d' := by
  rcases hlt with h | ⟨rfl, h⟩
  · have hl2 : daysInMonth 2020 m + slot m 0 ≤ slot m' 0 := by
      interval_cases m <;> interval_cases m' <;> first | omega | decide
    unfold slot at *
    omega
  · unfold slot; omega

theorem slot_bounds {m d : Nat} (h1 : 1 ≤ m) (h2 : m ≤ 12) (hd : 1 ≤ d) (hl : d ≤ daysInMonth 2020 m) :
    1 ≤ slot m d ∧ slot m d ≤ 366 := by
  have : daysInMonth 2020 m + slot m 0 ≤ 366 := by interval_cases m <;> decide
  unfold slot at *
  omega

/-- A month and a day that occur in some year. -/
def ValidMonthDay (m d : Nat) : Prop := 1 ≤ m ∧ m ≤ 12 ∧ 1 ≤ d ∧ d ≤ daysInMonth 2020 m

instance (m d : Nat) : Decidable (ValidMonthDay m d) := by unfold ValidMonthDay; infer_instance

theorem daysInMonth_le_leap (y : Int) (m : Nat) : daysInMonth y m ≤ daysInMonth 2020 m := by
  unfold daysInMonth
  split <;> first | omega | skip
  have : isLeap 2020 = true := by decide
  rw [this]
  split <;> simp

theorem slot_le_iff {m d m' d' : Nat} (h : ValidMonthDay m d) (h' : ValidMonthDay m' d') :
    slot m d ≤ slot m' d' ↔ m < m' ∨ (m = m' ∧ d ≤ d') := by
  obtain ⟨a1, a2, a3, a4⟩ := h
  obtain ⟨b1, b2, b3, b4⟩ := h'
  constructor
  · intro hle
    by_contra hc
    have hlt : m' < m ∨ (m' = m ∧ d' < d) := by omega
    have := slot_lt b1 b2 a1 a2 a3 b4 hlt
    omega
  · rintro (h | ⟨h, hd⟩)
    · exact le_of_lt (slot_lt a1 a2 b1 b2 b3 a4 (.inl h))
    · subst h
      rcases Nat.lt_or_eq_of_le hd with hd | rfl
      · exact le_of_lt (slot_lt a1 a2 b1 b2 b3 a4 (.inr ⟨rfl, hd⟩))
      · exact le_refl _

/-- **C15.** A virtual storage with an active period is active exactly on the days that are reached when walking forward
from the start day no later than the end day, also across the new year and whatever the year. -/
theorem C15_active_iff_cyclic (sd sm ed em : Nat) (hs : ValidMonthDay sm sd) (he : ValidMonthDay em ed) (date : Date)
    (hv : date.Valid) :
    (ActivePeriod.period sd sm ed em).isActive date = true ↔
      CyclicBetween (slot sm sd) (slot em ed) (slot date.month date.day) := by
  have hx : ValidMonthDay date.month date.day := by
    obtain ⟨h1, h2, h3, h4⟩ := hv
    exact ⟨h1, h2, h3, le_trans h4 (daysInMonth_le_leap _ _)⟩
  have e1 : (date.month > sm ∨ (date.month = sm ∧ date.day ≥ sd)) ↔ slot sm sd ≤ slot date.month date.day := by
    rw [slot_le_iff hs hx]; omega
  have e2 : (date.month < em ∨ (date.month = em ∧ date.day ≤ ed)) ↔ slot date.month date.day ≤ slot em ed :=
    (slot_le_iff hx he).symm
  have e3 : (sm < em ∨ (sm = em ∧ sd ≤ ed)) ↔ slot sm sd ≤ slot em ed := (slot_le_iff hs he).symm
  have b1 := slot_bounds hs.1 hs.2.1 hs.2.2.1 hs.2.2.2
  have b2 := slot_bounds he.1 he.2.1 he.2.2.1 he.2.2.2
  have b3 := slot_bounds hx.1 hx.2.1 hx.2.2.1 hx.2.2.2
  unfold ActivePeriod.isActive CyclicBetween
  simp only [e1, e2, e3]
  generalize slot sm sd = a at *
  generalize slot em ed = b at *
  generalize slot date.month date.day = x at *
  split <;> simp only [decide_eq_true_eq] <;> omega

/-- October to February, on a day in January of a common year. -/
example : (ActivePeriod.period 15 10 29 2).isActive ⟨2021, 1, 31⟩ = true ∧ CyclicBetween (slot 10 15) (slot 2 29) (slot 1 31) := by
  unfold CyclicBetween; decide

/-! ## C14 -/

/-- Reset flags of a virtual storage over a sequence of timesteps: whether `before` resets, carrying the stored date of the
last reset as `before` does. -/
def resetFlags (n : VSNode) : Option DateTime → List Timestep → List Bool
  | _, [] => []
  | last, t :: ts =>
    let r := n.doReset t last
    r :: resetFlags n (if r then some t.date else last) ts

/-- The stored date of the last reset after `before`. -/
theorem before_lastReset (n : VSNode) (t : Timestep) (M : ℚ) (s : VSState) :
    (n.before t M s).lastReset = if n.doReset t s.lastReset then some t.date else s.lastReset := by
  have h1 : ∀ s : VSState, (s.recover t).lastReset = s.lastReset := by
    intro s; unfold VSState.recover; split <;> rfl
  have h2 : (n.applyReset t M s).lastReset = some t.date := by
    unfold VSNode.applyReset; simp only; split <;> rfl
  unfold VSNode.before
  by_cases hr : n.doReset t s.lastReset = true
  · simp only [hr, if_true]
    split
    · rw [h1, h2]
    · exact h2
  · simp only [hr]
    split
    · rw [h1]; rfl
    · rfl

/-- The states of one virtual storage at the start of each step of a run, before `before`. -/
def statesAt (net : Net) (iv : Nat → InitialVolume) (k : Nat) : List StepIn → NetworkState → List (Option VSState)
  | [], _ => []
  | inp :: rest, s =>
    match step net iv inp s with
    | .error _ => [s.vs[k]?]
    | .ok s' => s.vs[k]? :: statesAt net iv k rest s'

/-- The flags describe real runs: in every completed run the decisions taken by `before` are the flags. -/
theorem flags_of_run {net : Net} {iv : Nat → InitialVolume} {k : Nat} {n : VSNode} (hn : net.vsNodes[k]? = some n)
    (hm : MembersOk net.kinds n) :
    ∀ (inputs : List StepIn) (s s' : NetworkState) (v : VSState), WellFormed net s → s.vs[k]? = some v →
      run net iv inputs s = .ok s' →
      (statesAt net iv k inputs s).zipWith (fun v t => v.map fun v => n.doReset t v.lastReset) (inputs.map (·.t)) =
        (resetFlags n v.lastReset (inputs.map (·.t))).map some := by
  intro inputs
  induction inputs with
  | nil => intro s s' v _ _ _; rfl
  | cons inp rest ih =>
    intro s s' v hw hv h
    simp only [run] at h
    cases hst : step net iv inp s with
    | error e => simp [hst] at h
    | ok s1 =>
      simp only [hst] at h
      obtain ⟨v1, hv1, hr⟩ := step_vs hw hst hn hv hm
      have hlast : v1.lastReset = if n.doReset inp.t v.lastReset then some inp.t.date else v.lastReset := by
        rw [← before_lastReset]
        exact hr.2.2.2.2.1
      have := ih s1 s' v1 (step_wellFormed hw hst) hv1 h
      simp only [statesAt, hst, List.map_cons, List.zipWith_cons_cons, hv, Option.map_some, resetFlags, List.cons.injEq,
        true_and]
      rw [this, hlast]

/-- The last reset before step `k`. -/
def LastResetAt (flags : List Bool) (k j : Nat) : Prop :=
  j < k ∧ flags[j]? = some true ∧ ∀ i, j < i → i < k → flags[i]? = some false

theorem resetFlags_length (n : VSNode) : ∀ (ts : List Timestep) (last : Option DateTime),
    (resetFlags n last ts).length = ts.length := by
  intro ts
  induction ts with
  | nil => intro _; rfl
  | cons t ts ih => intro last; simp [resetFlags, ih]

/-- The flags with the carried date: either no reset so far, or the date of the last one. -/
theorem resetFlags_get (n : VSNode) : ∀ (ts : List Timestep) (last : Option DateTime) (k : Nat) (t : Timestep),
    ts[k]? = some t →
    ∃ cur : Option DateTime, (resetFlags n last ts)[k]? = some (n.doReset t cur) ∧
      ((cur = last ∧ ∀ i < k, (resetFlags n last ts)[i]? = some false) ∨
       ∃ j tj, ts[j]? = some tj ∧ cur = some tj.date ∧ LastResetAt (resetFlags n last ts) k j) := by
  intro ts
  induction ts with
  | nil => intro last k t h; simp at h
  | cons a ts ih =>
    intro last k t h
    cases k with
    | zero =>
      simp only [List.getElem?_cons_zero, Option.some.injEq] at h
      subst h
      exact ⟨last, by simp [resetFlags], .inl ⟨rfl, fun i hi => by omega⟩⟩
    | succ k =>
      simp only [List.getElem?_cons_succ] at h
      obtain ⟨cur, hc1, hc2⟩ := ih (if n.doReset a last then some a.date else last) k t h
      refine ⟨cur, by simpa [resetFlags] using hc1, ?_⟩
      rcases hc2 with ⟨hcur, hno⟩ | ⟨j, tj, hj, hcur, hj1, hj2, hj3⟩
      · by_cases hr : n.doReset a last = true
        · rw [if_pos hr] at hcur
          refine .inr ⟨0, a, rfl, hcur, by omega, by simp [resetFlags, hr], ?_⟩
          intro i h0 hi
          obtain ⟨i', rfl⟩ : ∃ i', i = i' + 1 := ⟨i - 1, by omega⟩
          simpa [resetFlags] using hno i' (by omega)
        · rw [if_neg hr] at hcur
          refine .inl ⟨hcur, ?_⟩
          intro i hi
          cases i with
          | zero => simp [resetFlags, hr]
          | succ i => simpa [resetFlags] using hno i (by omega)
      · refine .inr ⟨j + 1, tj, by simpa using hj, hcur, by omega, by simpa [resetFlags] using hj2, ?_⟩
        intro i h0 hi
        obtain ⟨i', rfl⟩ : ∃ i', i = i' + 1 := ⟨i - 1, by omega⟩
        simpa [resetFlags] using hj3 i' (by omega) (by omega)

/-- Number of calendar months from one date to another. -/
def monthsBetween (a b : Date) : Int := (b.year * 12 + b.month) - (a.year * 12 + a.month)

/-- Timesteps are numbered from zero. -/
def Numbered (ts : List Timestep) : Prop := ∀ (k : Nat) (t : Timestep), ts[k]? = some t → t.index = k

/-- **C14**, number of months: a step resets iff it is the first one, or the storage is inactive, or at least the
configured number of calendar months lies between the last reset and this step. -/
theorem C14_months_reset_iff (n : VSNode) (m : Int) (hr : n.reset = .numberOfMonths m) (ts : List Timestep)
    (hnum : Numbered ts) (last : Option DateTime) (k : Nat) (t : Timestep) (ht : ts[k]? = some t) :
    (resetFlags n last ts)[k]? = some true ↔
      k = 0 ∨ n.isActive t = false ∨
      ∃ j tj, ts[j]? = some tj ∧ LastResetAt (resetFlags n last ts) k j ∧ m ≤ monthsBetween tj.date.date t.date.date := by
  obtain ⟨cur, hc1, hc2⟩ := resetFlags_get n ts last k t ht
  have hidx := hnum k t ht
  rw [hc1]
  have h0 : k ≠ 0 → (resetFlags n last ts)[0]? = some true := by
    intro hk
    cases ts with
    | nil => simp at ht
    | cons a ts =>
      have := hnum 0 a rfl
      simp [resetFlags, VSNode.doReset, Timestep.isFirst, this]
  by_cases hk : k = 0
  · subst hk
    simp [VSNode.doReset, Timestep.isFirst, hidx]
  · have hf : t.isFirst = false := by simp [Timestep.isFirst, hidx, hk]
    by_cases ha : n.isActive t = true
    · have hd : ∀ l, n.doReset t (some l) = decide (monthsSinceLastReset t.date l ≥ m) := by
        intro l
        simp [VSNode.doReset, hf, ha, hr]
      rcases hc2 with ⟨hcur, hno⟩ | ⟨j, tj, hj, hcur, hl⟩
      · have := hno 0 (by omega)
        rw [h0 hk] at this
        cases this
      · rw [hcur, hd]
        simp only [Option.some.injEq, decide_eq_true_eq, hk, ha, false_or, Bool.true_eq_false]
        have em : monthsSinceLastReset t.date tj.date = monthsBetween tj.date.date t.date.date := by
          unfold monthsSinceLastReset monthsBetween; ring
        rw [em]
        constructor
        · intro h; exact ⟨j, tj, hj, hl, h⟩
        · rintro ⟨j', tj', hj', hl', h⟩
          have : j = j' := by
            rcases Nat.lt_trichotomy j j' with hlt | heq | hgt
            · have := hl.2.2 j' hlt hl'.1; rw [hl'.2.1] at this; cases this
            · exact heq
            · have := hl'.2.2 j hgt hl.1; rw [hl.2.1] at this; cases this
          subst this
          rw [hj] at hj'
          cases hj'
          exact h
    · have ha' : n.isActive t = false := by simpa using ha
      simp [VSNode.doReset, hf, ha']

/-- **C14**, day of year: a step resets iff it is the first one, or the storage is inactive, or its date has the
configured day and month. -/
theorem C14_day_of_year_reset_iff (n : VSNode) (day month : Nat) (hr : n.reset = .dayOfYear day month)
    (ts : List Timestep) (hnum : Numbered ts) (last : Option DateTime) (k : Nat) (t : Timestep) (ht : ts[k]? = some t) :
    (resetFlags n last ts)[k]? = some true ↔
      k = 0 ∨ n.isActive t = false ∨ (t.date.date.day = day ∧ t.date.date.month = month) := by
  obtain ⟨cur, hc1, _⟩ := resetFlags_get n ts last k t ht
  have hidx := hnum k t ht
  rw [hc1]
  by_cases hk : k = 0
  · subst hk; simp [VSNode.doReset, Timestep.isFirst, hidx]
  · have hf : t.isFirst = false := by simp [Timestep.isFirst, hidx, hk]
    by_cases ha : n.isActive t = true
    · simp [VSNode.doReset, hf, ha, hr, hk]
    · have ha' : n.isActive t = false := by simpa using ha
      simp [VSNode.doReset, hf, ha']

/-- **C14**, never: only the first step and inactive steps reset. -/
theorem C14_never_reset_iff (n : VSNode) (hr : n.reset = .never) (ts : List Timestep) (hnum : Numbered ts)
    (last : Option DateTime) (k : Nat) (t : Timestep) (ht : ts[k]? = some t) :
    (resetFlags n last ts)[k]? = some true ↔ k = 0 ∨ n.isActive t = false := by
  obtain ⟨cur, hc1, _⟩ := resetFlags_get n ts last k t ht
  have hidx := hnum k t ht
  rw [hc1]
  by_cases hk : k = 0
  · subst hk; simp [VSNode.doReset, Timestep.isFirst, hidx]
  · have hf : t.isFirst = false := by simp [Timestep.isFirst, hidx, hk]
    by_cases ha : n.isActive t = true
    · simp [VSNode.doReset, hf, ha, hr, hk]
    · have ha' : n.isActive t = false := by simpa using ha
      simp [VSNode.doReset, hf, ha']

/-- Daily timesteps from a start date. -/
def Daily (start : Date) (ts : List Timestep) : Prop :=
  Numbered ts ∧ ∀ (k : Nat) (t : Timestep), ts[k]? = some t → t.date.date = start.addDays k

/-- **C14**, day of year with daily steps: in each year that has the configured date, if that date falls after the first
step and inside the time domain, there is exactly one step in that year on which an always active storage is reset. -/
theorem C14_day_of_year_once_per_year (n : VSNode) (day month : Nat) (hr : n.reset = .dayOfYear day month)
    (hact : n.activePeriod = .always) (start : Date) (hs : start.Valid) (ts : List Timestep) (hd : Daily start ts)
    (last : Option DateTime) (y : Int) (hv : (Date.mk y month day).Valid)
    (h1 : start.dayNumber < (Date.mk y month day).dayNumber)
    (h2 : (Date.mk y month day).dayNumber < start.dayNumber + ts.length) :
    ∃ k, 0 < k ∧ (resetFlags n last ts)[k]? = some true ∧ (start.addDays k) = ⟨y, month, day⟩ ∧
      ∀ k', 0 < k' → (start.addDays k').year = y → (resetFlags n last ts)[k']? = some true → k' = k := by
  obtain ⟨k, hk⟩ : ∃ k : Nat, (k : Int) = (Date.mk y month day).dayNumber - start.dayNumber :=
    ⟨((Date.mk y month day).dayNumber - start.dayNumber).toNat, by omega⟩
  have hdate : start.addDays k = ⟨y, month, day⟩ := by
    apply dayNumber_inj (addDays_valid hs k) hv
    rw [dayNumber_addDays hs]; omega
  have hklt : k < ts.length := by omega
  have hget : ts[k]? = some ts[k] := List.getElem?_eq_getElem hklt
  refine ⟨k, by omega, ?_, hdate, ?_⟩
  · rw [C14_day_of_year_reset_iff n day month hr ts hd.1 last k _ hget]
    have := hd.2 k _ hget
    rw [hdate] at this
    simp [this]
  · intro k' h0 hy hf
    have hk' : k' < ts.length := by
      by_contra hc
      have hlen := resetFlags_length n ts last
      rw [List.getElem?_eq_none (by omega)] at hf
      cases hf
    have hget' : ts[k']? = some ts[k'] := List.getElem?_eq_getElem hk'
    rw [C14_day_of_year_reset_iff n day month hr ts hd.1 last k' _ hget'] at hf
    have hact' : n.isActive ts[k'] = true := by simp [VSNode.isActive, hact, ActivePeriod.isActive]
    rcases hf with h | h | ⟨ha, hb⟩
    · omega
    · rw [hact'] at h; cases h
    · have hd' := hd.2 k' _ hget'
      rw [hd'] at ha hb
      have he : start.addDays k' = ⟨y, month, day⟩ := by
        cases hx : start.addDays k' with
        | mk yy mm dd =>
          rw [hx] at ha hb hy
          simp only at ha hb hy
          rw [ha, hb, hy]
      have e1 := dayNumber_addDays hs k
      have e2 := dayNumber_addDays hs k'
      rw [hdate] at e1
      rw [he] at e2
      omega

theorem succ_month (d : Date) (h : d.succ.year ≠ d.year ∨ d.succ.month ≠ d.month) : d.succ.day = 1 := by
  unfold Date.succ at h ⊢
  split
  · rename_i hc; simp [hc] at h
  · split <;> rfl

/-- **C14**, number of months with daily steps: after the first step an always active storage is only ever reset on the
first day of a month. -/
theorem C14_months_reset_on_first_of_month (n : VSNode) (m : Int) (hm : 1 ≤ m) (hr : n.reset = .numberOfMonths m)
    (hact : n.activePeriod = .always) (start : Date) (ts : List Timestep) (hd : Daily start ts)
    (last : Option DateTime) (k : Nat) (hk : 0 < k) (hf : (resetFlags n last ts)[k]? = some true) :
    (start.addDays k).day = 1 := by
  have hklt : k < ts.length := by
    by_contra hc
    have hlen := resetFlags_length n ts last
    rw [List.getElem?_eq_none (by omega)] at hf
    cases hf
  have hactive : ∀ t, n.isActive t = true := fun t => by simp [VSNode.isActive, hact, ActivePeriod.isActive]
  have hget : ts[k]? = some ts[k] := List.getElem?_eq_getElem hklt
  rw [C14_months_reset_iff n m hr ts hd.1 last k _ hget] at hf
  rcases hf with h | h | ⟨j, tj, hj, hl, hmonths⟩
  · omega
  · rw [hactive] at h; cases h
  · obtain ⟨k', rfl⟩ : ∃ k', k = k' + 1 := ⟨k - 1, by omega⟩
    have hget' : ts[k']? = some (ts[k']'(by omega)) := List.getElem?_eq_getElem (by omega)
    have hd1 := hd.2 _ _ hget
    have hd2 := hd.2 _ _ hget'
    have hdj := hd.2 _ _ hj
    have hsucc : start.addDays (k' + 1) = (start.addDays k').succ := rfl
    rw [hsucc]
    apply succ_month
    by_contra hc
    have hc1 : (start.addDays k').succ.year = (start.addDays k').year := by by_contra h; exact hc (.inl h)
    have hc2 : (start.addDays k').succ.month = (start.addDays k').month := by by_contra h; exact hc (.inr h)
    rw [hd1, hsucc, hdj] at hmonths
    have heq : monthsBetween (start.addDays j) (start.addDays k').succ = monthsBetween (start.addDays j) (start.addDays k') := by
      unfold monthsBetween; rw [hc1, hc2]
    rw [heq] at hmonths
    rcases Nat.lt_or_ge j k' with hlt | hge
    · -- the step before would have reset already
      have hno := hl.2.2 k' hlt (by omega)
      have hyes : (resetFlags n last ts)[k']? = some true := by
        rw [C14_months_reset_iff n m hr ts hd.1 last k' _ hget']
        refine .inr (.inr ⟨j, tj, hj, ⟨hlt, hl.2.1, fun i a b => hl.2.2 i a (by omega)⟩, ?_⟩)
        rw [hd2, hdj]
        exact hmonths
      rw [hno] at hyes
      cases hyes
    · have : j = k' := by have := hl.1; omega
      subst this
      unfold monthsBetween at hmonths
      omega

/-- **C14**, volumes: without a reset the volume changes only by recovery and use; with a reset it starts again from the
configured volume. -/
theorem C14_step_volume {net : Net} {iv : Nat → InitialVolume} {inp : StepIn} {s s' : NetworkState}
    (hw : WellFormed net s) (h : step net iv inp s = .ok s') {k : Nat} {n : VSNode} {v : VSState}
    (hn : net.vsNodes[k]? = some n) (hv : s.vs[k]? = some v) (hm : MembersOk net.kinds n)
    (hroll : n.rollingWindow = none) :
    ∃ v', s'.vsVolume k = .ok v' ∧
      |v' - ((if n.doReset inp.t v.lastReset then
                (match n.resetVolume with | .max => (inp.b.vs k).2 | .initial => n.initialVolume.get (inp.b.vs k).2)
              else v.storage.volume)
            - (if n.isActive inp.t then vsUse net.kinds net.edges n inp.flow else 0) * inp.t.days)| ≤ tol := by
  obtain ⟨v', hv', hr⟩ := step_vs hw h hn hv hm
  have hpre : (n.before inp.t (inp.b.vs k).2 v).storage.volume =
      if n.doReset inp.t v.lastReset then
        (match n.resetVolume with | .max => (inp.b.vs k).2 | .initial => n.initialVolume.get (inp.b.vs k).2)
      else v.storage.volume := by
    unfold VSNode.before
    simp only [hroll, Option.isSome_none, Bool.false_eq_true, if_false]
    by_cases hd : n.doReset inp.t v.lastReset = true
    · simp only [hd, if_true, VSNode.applyReset, hroll, VSState.resetVolume, StorageState.setVolume]
      cases n.resetVolume <;> rfl
    · simp [hd]
  simp only [hpre] at hr
  obtain ⟨r1, r2, r3, r4, _⟩ := hr
  refine ⟨v'.storage.volume, by simp [NetworkState.vsVolume, hv'], ?_⟩
  generalize (if n.doReset inp.t v.lastReset then
        (match n.resetVolume with | .max => (inp.b.vs k).2 | .initial => n.initialVolume.get (inp.b.vs k).2)
      else v.storage.volume) - (if n.isActive inp.t then vsUse net.kinds net.edges n inp.flow else 0) * inp.t.days = raw at *
  have htol : (0 : ℚ) ≤ tol := by norm_num [tol]
  rw [r4, abs_le]
  rcases le_total (inp.b.vs k).2 raw with hc | hc
  · rw [min_eq_left hc, max_eq_right r3]
    constructor <;> linarith
  · rw [min_eq_right hc]
    rcases le_total (inp.b.vs k).1 raw with hd | hd
    · rw [max_eq_right hd]; constructor <;> linarith
    · rw [max_eq_left hd]; constructor <;> linarith

/-- Weekly timesteps from Wednesday 1 January 2020. -/
def weekly : List Timestep := (List.range 54).map fun k => ⟨⟨(Date.mk 2020 1 1).addDays (7 * k), 0⟩, k, 604800000000000⟩

/-- **C14** fails for a day-of-year reset when the timesteps step over that day: with weekly steps the reset on 3 April
2020 does not happen, although more than a year is simulated. -/
theorem C14_day_of_year_skipped_refuted :
    (resetFlags { exVSNode none .initial with reset := .dayOfYear 3 4 } none weekly).count true = 1 := by
  decide +kernel

/-- Daily steps in June 2020, reset every month; a reset happens on 1 July. -/
example : (resetFlags { exVSNode none .initial with reset := .numberOfMonths 1 } none
    ((List.range 40).map fun k => ⟨⟨(Date.mk 2020 6 15).addDays k, 0⟩, k, 86400000000000⟩))[16]? = some true := by
  decide +kernel

end Verif.State
