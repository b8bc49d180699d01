import Verif.Spec.Simulation
import Verif.Props.Choice
import Verif.Props.VirtualStorage

/-! # Lemmas for whole simulations -/

namespace Verif.Simulation

open Verif.State Verif.Solver Verif.Time
open Verif.Topology (TNode)

/-! ## Bounds -/

theorem volumeBounds_iff {lo hi : Option Metric} {σ : Nat → Option ℚ} {p : ℚ × ℚ} :
    volumeBounds lo hi σ = some p ↔ VolumesAre σ lo hi p.1 p.2 := by
  have key : ∀ (m : Option Metric) (d v : ℚ), valueOr d σ m = some v ↔ ValueIs σ m d v := by
    intro m d v
    cases m with
    | none => simp [valueOr, ValueIs, eq_comm]
    | some m => simp [valueOr, ValueIs]
  unfold volumeBounds VolumesAre
  rw [← key, ← key]
  obtain ⟨a, b⟩ := p
  cases valueOr 0 σ lo <;> cases valueOr f64MAX σ hi <;> simp

theorem VolumesAre.unique {σ : Nat → Option ℚ} {min max : Option Metric} {lo hi lo' hi' : ℚ} (h : VolumesAre σ min max lo hi)
    (h' : VolumesAre σ min max lo' hi') : lo = lo' ∧ hi = hi' := by
  have e := (volumeBounds_iff (p := (lo, hi))).2 h
  have e' := (volumeBounds_iff (p := (lo', hi'))).2 h'
  rw [e] at e'
  simpa using e'

variable {S : Sim}

theorem bounds_some {σ : Nat → Option ℚ} {b : State.Bounds} (h : S.bounds σ = some b) :
    (∀ n ∈ S.net.nodes, n.kind = .storage →
      VolumesAre σ (S.data n.index).minVolume (S.data n.index).maxVolume (b.node n.index).1 (b.node n.index).2) ∧
    ∀ k < S.vsNodes.length, VolumesAre σ (S.vsMin k) (S.vsMax k) (b.vs k).1 (b.vs k).2 := by
  unfold Sim.bounds at h
  by_cases hc : (∀ n ∈ S.net.nodes, n.kind = .storage → (S.nodeVolumes σ n.index).isSome) ∧
      ∀ k < S.vsNodes.length, (S.vsVolumes σ k).isSome
  · rw [if_pos hc, Option.some.injEq] at h
    subst h
    constructor
    · intro n hn hk
      obtain ⟨p, hp⟩ := Option.isSome_iff_exists.1 (hc.1 n hn hk)
      simp only [hp, Option.getD_some]
      exact volumeBounds_iff.1 hp
    · intro k hk
      obtain ⟨p, hp⟩ := Option.isSome_iff_exists.1 (hc.2 k hk)
      simp only [hp, Option.getD_some]
      exact volumeBounds_iff.1 hp
  · rw [if_neg hc] at h
    cases h

theorem bounds_none {σ : Nat → Option ℚ} (h : S.bounds σ = none) : ¬ S.Present σ := by
  intro hp
  unfold Sim.bounds at h
  rw [if_pos] at h
  · cases h
  · constructor
    · intro n hn hk
      obtain ⟨lo, hi, hv⟩ := hp.volumes n hn hk
      have := (volumeBounds_iff (p := (lo, hi))).2 hv
      unfold Sim.nodeVolumes
      rw [this]; rfl
    · intro k hk
      obtain ⟨lo, hi, hv⟩ := hp.vs k hk
      have := (volumeBounds_iff (p := (lo, hi))).2 hv
      unfold Sim.vsVolumes
      rw [this]; rfl

/-! ## Sums over edges -/

theorem wf (hv : S.Valid) : WF S.net := Created.wf (M := S.model) hv.model

theorem kinds_get (i : Nat) : S.stateNet.kinds[i]? = (S.net.nodes[i]?).map (·.kind) := by simp [Sim.stateNet]

theorem inSum_eq (hv : S.Valid) (f : Nat → ℚ) {i : Nat} {n : TNode} (hn : S.net.nodes[i]? = some n) :
    inSum S.stateNet.edges f i = (n.incoming.map f).sum := by
  rw [(wf hv).incoming i n hn]
  unfold inSum
  simp only [Sim.stateNet, List.map_map]
  congr 2

theorem outSum_eq (hv : S.Valid) (f : Nat → ℚ) {i : Nat} {n : TNode} (hn : S.net.nodes[i]? = some n) :
    outSum S.stateNet.edges f i = (n.outgoing.map f).sum := by
  rw [(wf hv).outgoing i n hn]
  unfold outSum
  simp only [Sim.stateNet, List.map_map]
  congr 2

theorem node_get (hv : S.Valid) {n : TNode} (hn : n ∈ S.net.nodes) : S.net.nodes[n.index]? = some n := by
  obtain ⟨k, hk⟩ := List.mem_iff_getElem?.1 hn
  rw [(wf hv).nodeIndex k n hk]
  exact hk

/-- The flow of a member in the row of a virtual storage. -/
theorem lpUse_flowAt (hv : S.Valid) (f : Nat → ℚ) {i : Nat} {n : TNode} (hn : S.net.nodes[i]? = some n) (hk : n.kind ≠ .storage) :
    lpUse S.stateNet.kinds S.stateNet.edges f i = flowAt S.net f i := by
  unfold lpUse flowAt
  rw [kinds_get, hn]
  simp only [Option.map_some, Option.some.injEq, Option.getD_some]
  unfold nodeFlow
  cases h : n.kind with
  | storage => exact absurd h hk
  | input => simp only [reduceCtorEq, if_false]; exact outSum_eq hv f hn
  | link => simp only [reduceCtorEq, if_false]; exact outSum_eq hv f hn
  | output => simp only [if_true]; exact inSum_eq hv f hn

theorem membersOk (hv : S.Valid) : ∀ n ∈ S.vsNodes, MembersOk S.stateNet.kinds n := by
  intro n hn i hi
  obtain ⟨t, ht, hk⟩ := hv.members n hn i hi
  refine ⟨?_, ?_⟩
  · simp only [Sim.stateNet, List.length_map]
    exact (List.getElem?_eq_some_iff.1 ht).1
  · rw [kinds_get, ht]
    simpa using hk

theorem sum_lpUse (hv : S.Valid) (f : Nat → ℚ) {n : VSNode} (hn : n ∈ S.vsNodes) :
    ((n.nodes.zip n.factors).map fun (i, c) => -c * lpUse S.stateNet.kinds S.stateNet.edges f i).sum =
      -((n.nodes.zip n.factors).map fun p => p.2 * flowAt S.net f p.1).sum := by
  have hm := hv.members n hn
  have key : ∀ l : List (Nat × ℚ), (∀ p ∈ l, ∃ t, S.net.nodes[p.1]? = some t ∧ t.kind ≠ .storage) →
      (l.map fun (i, c) => -c * lpUse S.stateNet.kinds S.stateNet.edges f i).sum = -(l.map fun p => p.2 * flowAt S.net f p.1).sum := by
    intro l
    induction l with
    | nil => simp
    | cons p l ih =>
      intro h
      obtain ⟨t, ht, hk⟩ := h p (List.mem_cons_self ..)
      simp only [List.map_cons, List.sum_cons, ih (fun q hq => h q (List.mem_cons_of_mem _ hq)), lpUse_flowAt hv f ht hk]
      ring
  apply key
  rintro ⟨i, c⟩ hp
  exact hm i (List.of_mem_zip hp).1

theorem link_balance (hv : S.Valid) {f : Nat → ℚ} (hb : Balanced S.net f) (i : Nat) (hk : S.stateNet.kinds[i]? = some .link) :
    inSum S.stateNet.edges f i = outSum S.stateNet.edges f i := by
  rw [kinds_get] at hk
  cases hn : S.net.nodes[i]? with
  | none => simp [hn] at hk
  | some n =>
    simp only [hn, Option.map_some, Option.some.injEq] at hk
    rw [inSum_eq hv f hn, outSum_eq hv f hn]
    exact hb n (List.mem_of_getElem? hn) hk

theorem vsUse_eq (hv : S.Valid) {f : Nat → ℚ} (hb : Balanced S.net f) {n : VSNode} (hn : n ∈ S.vsNodes) :
    State.vsUse S.stateNet.kinds S.stateNet.edges n f = ((n.nodes.zip n.factors).map fun p => p.2 * flowAt S.net f p.1).sum := by
  have hm := hv.members n hn
  unfold State.vsUse
  have key : ∀ l : List (Nat × ℚ), (∀ p ∈ l, ∃ t, S.net.nodes[p.1]? = some t ∧ t.kind ≠ .storage) →
      (l.map fun (i, c) => c * memberUse S.stateNet.kinds S.stateNet.edges f i).sum = (l.map fun p => p.2 * flowAt S.net f p.1).sum := by
    intro l
    induction l with
    | nil => simp
    | cons p l ih =>
      intro h
      obtain ⟨t, ht, hk⟩ := h p (List.mem_cons_self ..)
      have : memberUse S.stateNet.kinds S.stateNet.edges f p.1 = flowAt S.net f p.1 := by
        rw [← lpUse_flowAt hv f ht hk]
        unfold memberUse lpUse
        have hkk := kinds_get (S := S) p.1
        rw [ht, Option.map_some] at hkk
        rw [hkk]
        cases h : t.kind with
        | storage => exact absurd h hk
        | input => simp
        | output => simp
        | link =>
          simp only [Option.some.injEq, reduceCtorEq, if_false]
          exact link_balance hv hb _ (by rw [hkk, h])
      simp only [List.map_cons, List.sum_cons, ih (fun q hq => h q (List.mem_cons_of_mem _ hq)), this]
  apply key
  rintro ⟨i, c⟩ hp
  exact hm i (List.of_mem_zip hp).1

theorem noExclusivity_ok {M : Model} (h : M.NoExclusivity) : MembersConstant M ∧ GroupsAre M [] := by
  refine ⟨?_, ?_⟩
  · intro a ha mn mx he
    rw [h a ha] at he; cases he
  · intro g
    refine ⟨fun hg => (by cases hg), ?_⟩
    rintro ⟨a, ha, mn, mx, he, _⟩
    rw [h a ha] at he; cases he

/-! ## The invariant -/

/-- What holds between steps. -/
structure Inv (S : Sim) (big negBig : ℚ) (s : SimState) : Prop where
  wf : WellFormed S.stateNet s.network
  vol : ∀ i, S.stateNet.kinds[i]? = some .storage → ∃ v, s.network.nodeVolume i = .ok v
  reach : Reach S.model big negBig S.sets s.solver
  hist : ∀ (k : Nat) (n : VSNode) (v : VSState), S.vsNodes[k]? = some n → s.network.vs[k]? = some v →
    v.history.map (·.size) = n.rollingWindow

/-- What was used within the window may be given back in steps of `d` days without going beyond `hi`. -/
def Returns (d hi : ℚ) (v : VSState) : Prop :=
  ∀ h, v.history = some h → (∀ q ∈ h.flows, 0 ≤ q) ∧ v.storage.volume + d * h.flows.sum ≤ hi

/-- Virtual storages lie within the bounds of a step, and stay there if all that was used within the window is given back. -/
def VsIn (S : Sim) (inp : Inp) (s : NetworkState) : Prop :=
  ∀ (k : Nat) (n : VSNode) (lo hi : ℚ), S.vsNodes[k]? = some n → VolumesAre inp.metric (S.vsMin k) (S.vsMax k) lo hi →
    ∃ v, s.vs[k]? = some v ∧ lo ≤ v.storage.volume ∧ v.storage.volume ≤ hi ∧ Returns inp.t.days hi v

theorem inv_initial (hv : S.Valid) {big negBig : ℚ} {s : SimState} (h : S.initial big negBig = .ok s) : Inv S big negBig s := by
  unfold Sim.initial at h
  cases hc : create S.model big negBig S.sets with
  | error e => rw [hc] at h; cases h
  | ok b =>
    rw [hc] at h
    simp only [Except.ok.injEq] at h
    subst h
    refine ⟨⟨?_, ?_, ?_, ?_⟩, ?_, Reach.create b hc, ?_⟩
    · simp [Sim.initialNetwork, Sim.stateNet]
    · simp [Sim.initialNetwork, Sim.stateNet]
    · intro e he
      obtain ⟨k, hk⟩ := List.mem_iff_getElem?.1 he
      obtain ⟨h1, h2, h3⟩ := (Simulation.wf hv).index k e hk
      have := (List.getElem?_eq_some_iff.1 hk).1
      simp only [Sim.initialNetwork, List.length_map]
      exact ⟨h2, h3, by rw [h1]; exact this⟩
    · have : S.stateNet.edges.map (·.index) = List.range S.stateNet.edges.length := by
        apply List.ext_getElem?
        intro k
        rw [List.getElem?_map]
        cases hk : S.stateNet.edges[k]? with
        | none =>
          rw [List.getElem?_eq_none_iff] at hk
          simp [hk]
        | some e =>
          have hlt := (List.getElem?_eq_some_iff.1 hk).1
          rw [List.getElem?_range hlt, Option.map_some, ((Simulation.wf hv).index k e hk).1]
      rw [this]
      exact List.nodup_range
    · intro i hi
      rw [kinds_get] at hi
      cases hn : S.net.nodes[i]? with
      | none => simp [hn] at hi
      | some n =>
        simp only [hn, Option.map_some, Option.some.injEq] at hi
        refine ⟨0, ?_⟩
        unfold NetworkState.nodeVolume
        simp [Sim.initialNetwork, hn, hi, StorageState.new]
    · intro k n v hn hv
      simp only [Sim.initialNetwork, List.getElem?_map, hn, Option.map_some, Option.some.injEq] at hv
      subst hv
      cases h : n.rollingWindow <;> simp [VSState.new, History.new]

/-! ## The state at the time of the solve -/

theorem pre_eq (inp : Inp) (b : State.Bounds) (f : Nat → ℚ) (s : NetworkState) :
    S.pre inp b s = preSolve S.stateNet (S.iv inp.metric) ⟨inp.t, b, f⟩ s := rfl

theorem pre_volume {big negBig : ℚ} {s : SimState} (hi : Inv S big negBig s) (inp : Inp) (b : State.Bounds) {i : Nat}
    (hk : S.stateNet.kinds[i]? = some .storage) :
    ∃ v, (S.pre inp b s.network).nodeVolume i = .ok v ∧
      if inp.t.index = 0 then v = (S.iv inp.metric i).get (b.node i).2 else s.network.nodeVolume i = .ok v := by
  obtain ⟨v, hv⟩ := hi.vol i hk
  unfold NetworkState.nodeVolume at hv
  cases hs : s.network.nodes[i]? with
  | none => simp [hs] at hv
  | some n =>
    cases n with
    | flow f => simp [hs] at hv
    | storage st =>
      have hpre := nodesBefore_get S.stateNet.kinds (S.iv inp.metric) b.node inp.t s.network.nodes i st hk hs
      refine ⟨_, by
        unfold NetworkState.nodeVolume Sim.pre preSolve
        simp only
        rw [hpre], ?_⟩
      by_cases h0 : inp.t.index = 0
      · simp [h0, StorageState.setVolume]
      · simp only [h0, if_false]
        unfold NetworkState.nodeVolume
        rw [hs]

/-- What a licence with a rolling window is reset to leaves room for what is given back. -/
def RollOk (S : Sim) (inp : Inp) : Prop :=
  ∀ (k : Nat) (n : VSNode) (lo hi : ℚ), S.vsNodes[k]? = some n → n.rollingWindow.isSome = true →
    VolumesAre inp.metric (S.vsMin k) (S.vsMax k) lo hi → n.initialVolume.get hi = hi ∨ n.resetVolume = .initial ∧ inp.t.days ≤ 1

theorem sum_replicate_eq (w : Nat) (q : ℚ) : (List.replicate w q).sum = w * q := by simp

/-- A reset of a licence. -/
theorem applyReset_in {n : VSNode} {t : Timestep} {lo hi : ℚ} {v : VSState} (hsize : v.history.map (·.size) = n.rollingWindow)
    (hw : ∀ w, n.rollingWindow = some w → 0 < w)
    (hs : lo ≤ n.initialVolume.get hi ∧ n.initialVolume.get hi ≤ hi)
    (hr : n.rollingWindow.isSome = true → n.initialVolume.get hi = hi ∨ n.resetVolume = .initial ∧ t.days ≤ 1) :
    (n.applyReset t hi v).storage.volume = resetTo n hi ∧ lo ≤ resetTo n hi ∧ resetTo n hi ≤ hi ∧
      Returns t.days hi (n.applyReset t hi v) ∧ (n.applyReset t hi v).history.map (·.size) = n.rollingWindow := by
  have h1 : lo ≤ resetTo n hi ∧ resetTo n hi ≤ hi := by
    unfold resetTo
    cases n.resetVolume with
    | initial => exact hs
    | max => exact ⟨le_trans hs.1 hs.2, le_refl _⟩
  have h2 : (n.applyReset t hi v).storage.volume = resetTo n hi := by
    unfold VSNode.applyReset resetTo
    cases n.rollingWindow <;> cases n.resetVolume <;> rfl
  refine ⟨h2, h1.1, h1.2, ?_, ?_⟩
  · intro h hh
    rw [h2]
    cases hroll : n.rollingWindow with
    | none =>
      rw [hroll] at hsize
      have : v.history = none := by simpa using hsize
      unfold VSNode.applyReset at hh
      simp only [hroll, VSState.resetVolume, this] at hh
      cases hh
    | some w =>
      rw [hroll] at hsize
      have hpos := hw w hroll
      have hwq : (0 : ℚ) < w := by exact_mod_cast hpos
      obtain ⟨h0, hh0, hsz⟩ := Option.map_eq_some_iff.1 hsize
      unfold VSNode.applyReset at hh
      simp only [hroll, VSState.resetVolume, VSState.resetHistory, hh0, Option.map_some, Option.some.injEq, History.reset] at hh
      subst hh
      simp only [hsz]
      have hq : 0 ≤ (hi - n.initialVolume.get hi) / (w : ℚ) := div_nonneg (by linarith [hs.2]) (le_of_lt hwq)
      refine ⟨fun q hq' => by rw [List.eq_of_mem_replicate hq']; exact hq, ?_⟩
      rw [sum_replicate_eq, mul_div_cancel₀ _ (ne_of_gt hwq)]
      rcases hr (by rw [hroll]; rfl) with hfull | ⟨hini, hday⟩
      · rw [hfull, sub_self, mul_zero, add_zero]
        exact h1.2
      · unfold resetTo
        simp only [hini]
        nlinarith [hs.2]
  · unfold VSNode.applyReset
    cases hroll : n.rollingWindow with
    | none =>
      rw [hroll] at hsize
      simpa [VSState.resetVolume] using hsize
    | some w =>
      rw [hroll] at hsize
      obtain ⟨h0, hh0, hsz⟩ := Option.map_eq_some_iff.1 hsize
      simp [VSState.resetVolume, VSState.resetHistory, hh0, History.reset, hsz]

/-- What is given back at the start of a step. -/
def given (v : VSState) : ℚ :=
  match v.history with
  | none => 0
  | some h => h.popFlow.1

theorem popFlow_spec (h : History) (hq : ∀ q ∈ h.flows, 0 ≤ q) :
    0 ≤ h.popFlow.1 ∧ (∀ q ∈ h.popFlow.2.flows, 0 ≤ q) ∧ h.popFlow.1 + h.popFlow.2.flows.sum = h.flows.sum ∧ h.popFlow.2.size = h.size := by
  unfold History.popFlow
  by_cases hs : h.size ≤ h.flows.length
  · rw [if_pos hs]
    cases hf : h.flows with
    | nil => simp [hf]
    | cons a l =>
      rw [hf] at hq
      refine ⟨hq a (List.mem_cons_self ..), fun q hq' => hq q (List.mem_cons_of_mem _ hq'), by simp, rfl⟩
  · rw [if_neg hs]
    exact ⟨le_refl _, hq, by simp, rfl⟩

theorem popFlow_size (h : History) : h.popFlow.2.size = h.size := by
  unfold History.popFlow
  split_ifs
  · cases h.flows <;> rfl
  · rfl

/-- Giving back what was used. -/
theorem recover_in {t : Timestep} {lo hi : ℚ} {v : VSState} (hd : 0 < t.days) (h1 : lo ≤ v.storage.volume) (h2 : v.storage.volume ≤ hi)
    (h3 : Returns t.days hi v) :
    (v.recover t).storage.volume = v.storage.volume + t.days * given v ∧ lo ≤ (v.recover t).storage.volume ∧
      (v.recover t).storage.volume ≤ hi ∧ Returns t.days hi (v.recover t) := by
  unfold VSState.recover given
  cases hh : v.history with
  | none => exact ⟨by simp, h1, h2, by simpa [hh] using h3⟩
  | some h =>
    obtain ⟨a, b⟩ := h3 h hh
    obtain ⟨c1, c2, c3, c4⟩ := popFlow_spec h a
    simp only [StorageState.addIn]
    have hp := mul_nonneg (le_of_lt hd) c1
    have hs : 0 ≤ h.popFlow.2.flows.sum := List.sum_nonneg c2
    have hs' := mul_nonneg (le_of_lt hd) hs
    rw [← c3, mul_add] at b
    refine ⟨by ring, by linarith, by linarith, ?_⟩
    intro h' hh'
    simp only [Option.some.injEq] at hh'
    subst hh'
    exact ⟨c2, by simp only; linarith⟩

theorem recover_size (t : Timestep) (v : VSState) : (v.recover t).history.map (·.size) = v.history.map (·.size) := by
  unfold VSState.recover
  cases hh : v.history with
  | none => simp [hh]
  | some h => simp [popFlow_size]

theorem before_size {n : VSNode} {t : Timestep} {hi : ℚ} {v : VSState} (hsize : v.history.map (·.size) = n.rollingWindow) :
    (n.before t hi v).history.map (·.size) = n.rollingWindow := by
  have hreset : (n.applyReset t hi v).history.map (·.size) = n.rollingWindow := by
    unfold VSNode.applyReset
    cases hroll : n.rollingWindow with
    | none => rw [hroll] at hsize; simpa [VSState.resetVolume] using hsize
    | some w =>
      rw [hroll] at hsize
      obtain ⟨h0, hh0, hsz⟩ := Option.map_eq_some_iff.1 hsize
      simp [VSState.resetVolume, VSState.resetHistory, hh0, History.reset, hsz]
  unfold VSNode.before
  simp only
  by_cases h1 : n.doReset t v.lastReset = true
  · rw [if_pos h1]
    split_ifs
    · rw [recover_size, hreset]
    · exact hreset
  · rw [if_neg h1]
    split_ifs
    · rw [recover_size, hsize]
    · exact hsize

theorem pre_vs_get {big negBig : ℚ} {s : SimState} (hi : Inv S big negBig s) (inp : Inp) (b : State.Bounds) {k : Nat} {n : VSNode}
    (hn : S.vsNodes[k]? = some n) : ∃ v, s.network.vs[k]? = some v ∧
      (S.pre inp b s.network).vs[k]? = some (n.before inp.t (b.vs k).2 v) := by
  have hlt := (List.getElem?_eq_some_iff.1 hn).1
  have hlen : s.network.vs.length = S.vsNodes.length := hi.wf.vs
  have hk : k < s.network.vs.length := by omega
  exact ⟨_, List.getElem?_eq_getElem hk, by simp [Sim.pre, preSolve, vsBefore, Sim.stateNet, hn, hk]⟩

theorem pre_vs (hv : S.Valid) {big negBig : ℚ} {s : SimState} (hi : Inv S big negBig s) (inp : Inp) (b : State.Bounds)
    (hd : 0 < inp.t.days) (hb : S.bounds inp.metric = some b)
    (hstart : ∀ (k : Nat) (n : VSNode) (lo hi : ℚ), S.vsNodes[k]? = some n →
      VolumesAre inp.metric (S.vsMin k) (S.vsMax k) lo hi → lo ≤ n.initialVolume.get hi ∧ n.initialVolume.get hi ≤ hi)
    (hro : RollOk S inp) (hin : inp.t.index = 0 ∨ VsIn S inp s.network) {k : Nat} {n : VSNode} (hn : S.vsNodes[k]? = some n) :
    ∃ v, (S.pre inp b s.network).vs[k]? = some v ∧ (b.vs k).1 ≤ v.storage.volume ∧ v.storage.volume ≤ (b.vs k).2 ∧
      Returns inp.t.days (b.vs k).2 v := by
  have hlt := (List.getElem?_eq_some_iff.1 hn).1
  have hvol := (bounds_some hb).2 k hlt
  obtain ⟨v, hv0, hpre⟩ := pre_vs_get hi inp b hn
  refine ⟨_, hpre, ?_⟩
  have hsize := hi.hist k n v hn hv0
  have hs := hstart k n _ _ hn hvol
  have hbase : ∃ u, n.before inp.t (b.vs k).2 v = (if n.rollingWindow.isSome then u.recover inp.t else u) ∧
      (b.vs k).1 ≤ u.storage.volume ∧ u.storage.volume ≤ (b.vs k).2 ∧ Returns inp.t.days (b.vs k).2 u := by
    by_cases hr : n.doReset inp.t v.lastReset = true
    · obtain ⟨h1, h2, h3, h4, _⟩ := applyReset_in (t := inp.t) hsize (fun w hw => (hv.rolling n (List.mem_of_getElem? hn) w hw).1) hs
        (fun h => hro k n _ _ hn h hvol)
      refine ⟨n.applyReset inp.t (b.vs k).2 v, by unfold VSNode.before; simp [hr], by rw [h1]; exact h2, by rw [h1]; exact h3, h4⟩
    · rcases hin with h0 | hin
      · exfalso
        apply hr
        simp [VSNode.doReset, Timestep.isFirst, h0]
      · obtain ⟨v', h1, h2, h3, h4⟩ := hin k n _ _ hn hvol
        rw [hv0] at h1
        cases h1
        exact ⟨v, by unfold VSNode.before; simp [hr], h2, h3, h4⟩
  obtain ⟨u, hu, h1, h2, h3⟩ := hbase
  rw [hu]
  split_ifs
  · exact (recover_in hd h1 h2 h3).2
  · exact ⟨h1, h2, h3⟩

theorem vsVolume_get {s : NetworkState} {k : Nat} {v : VSState} (h : s.vs[k]? = some v) : s.vsVolume k = .ok v.storage.volume := by
  unfold NetworkState.vsVolume
  rw [h]

theorem atLeast_iff {σ : Nat → Option ℚ} {m : Option Metric} {d v : ℚ} : AtLeast σ m d v ↔ ∃ l, ValueIs σ m d l ∧ l ≤ v := by
  cases m <;> simp [AtLeast, ValueIs]

theorem atMost_iff {σ : Nat → Option ℚ} {m : Option Metric} {d v : ℚ} : AtMost σ m d v ↔ ∃ u, ValueIs σ m d u ∧ v ≤ u := by
  cases m <;> simp [AtMost, ValueIs]

theorem vs_get {k : Nat} {n : VSNode} (h : S.vsNodes[k]? = some n) : S.model.vs[k]? = some ⟨n.nodesWithFactors, S.vsCost k⟩ := by
  simp [Sim.model, h]

theorem vs_get' {k : Nat} {v : VStore} (h : S.model.vs[k]? = some v) :
    ∃ n, S.vsNodes[k]? = some n ∧ v = ⟨n.nodesWithFactors, S.vsCost k⟩ := by
  simp only [Sim.model, List.getElem?_mapIdx, Option.map_eq_some_iff] at h
  obtain ⟨n, h1, h2⟩ := h
  exact ⟨n, h1, h2.symm⟩

/-- Storage nodes are in no group. -/
theorem not_group (hv : S.Valid) {n : TNode} (hn : n ∈ S.net.nodes) (hk : n.kind = .storage) : ¬ InGroup S.model n.index := by
  intro h
  obtain ⟨_, _, _, h1, _⟩ := member_bounds hv.model hv.constant (show n ∈ S.model.net.nodes from hn) h
  exact h1 hk

/-- The flows the program allows are those allowed by the specification. -/
theorem allowed_iff (hv : S.Valid) {inp : Inp} {pre : NetworkState} {st : StepState} (hs : S.Shows inp pre st) (f : Nat → ℚ) :
    AllowedChoice S.model st f ↔ S.Allowed inp pre f := by
  have hm := hs.metric
  have hd := hs.days
  constructor
  · intro h
    refine ⟨h.nonneg, h.balanced, ?_, ?_, ?_, ?_, ?_, h.choice⟩
    · intro n hn hk hg
      have := h.nodes n hn hg
      unfold NodeOk at this
      rw [if_neg hk, hm] at this
      exact this
    · intro n hn hk
      have := h.nodes n hn (not_group hv hn hk)
      unfold NodeOk at this
      rw [if_pos hk, hm, hd] at this
      obtain ⟨v, h1, h2, h3⟩ := this
      obtain ⟨w, h4, h5⟩ := hs.volume n hn hk
      rw [h5] at h1
      cases h1
      obtain ⟨lo, h6, h7⟩ := atLeast_iff.1 h2
      obtain ⟨hi, h8, h9⟩ := atMost_iff.1 h3
      exact ⟨lo, hi, v, ⟨h6, h8⟩, h4, h7, h9⟩
    · intro a ha
      have := h.aggs a ha
      rw [hm] at this
      exact this
    · intro a ha F hF
      have := h.factors a ha F hF
      rw [hm] at this
      exact this
    · intro k n hn hact
      obtain ⟨a, m, h1, h2, h3⟩ := h.vs k _ (vs_get hn) (by rw [hs.active k n hn]; exact hact)
      obtain ⟨lo, hi, v, h4, h5, h6⟩ := hs.vs k (List.getElem?_eq_some_iff.1 hn).1
      rw [h6] at h1
      cases h1
      rw [hd] at h2 h3
      refine ⟨lo, hi, v, h4, h5, ?_, ?_⟩ <;> (unfold Sim.use; rw [if_pos hact])
      · exact h2
      · exact h3
  · intro h
    refine ⟨h.nonneg, h.balanced, ?_, ?_, ?_, ?_, h.choice⟩
    · intro n hn hg
      unfold NodeOk
      rw [hm, hd]
      by_cases hk : n.kind = .storage
      · rw [if_pos hk]
        obtain ⟨lo, hi, v, h1, h2, h3, h4⟩ := h.storage n hn hk
        obtain ⟨w, h5, h6⟩ := hs.volume n hn hk
        rw [h2] at h5
        cases h5
        exact ⟨v, h6, atLeast_iff.2 ⟨lo, h1.1, h3⟩, atMost_iff.2 ⟨hi, h1.2, h4⟩⟩
      · rw [if_neg hk]
        exact h.nodes n hn hk hg
    · rw [hm]; exact h.aggs
    · rw [hm]; exact h.factors
    · intro k v hv hact
      obtain ⟨n, hn, rfl⟩ := vs_get' hv
      rw [hs.active k n hn] at hact
      obtain ⟨lo, hi, v, h1, h2, h3, h4⟩ := h.vs k n hn hact
      obtain ⟨lo', hi', v', h5, h6, h7⟩ := hs.vs k (List.getElem?_eq_some_iff.1 hn).1
      obtain ⟨rfl, rfl⟩ := h1.unique h5
      rw [h2] at h6
      cases h6
      unfold Sim.use at h3 h4
      rw [if_pos hact] at h3 h4
      rw [hd]
      exact ⟨_, _, h7, h3, h4⟩

theorem within_iff {inp : Inp} {pre : NetworkState} {st : StepState} (hs : S.Shows inp pre st) (big negBig : ℚ) (f : Nat → ℚ) :
    WithinLimits S.model big negBig st f ↔ S.Within big negBig inp.metric f := by
  have hm := hs.metric
  constructor
  · intro h
    refine ⟨h.edges, h.nodes, h.aggs, ?_, by rw [← hm]; exact h.factors⟩
    intro n hn
    obtain ⟨k, hk⟩ := List.mem_iff_getElem?.1 hn
    have := h.vs _ (List.mem_of_getElem? (vs_get hk))
    unfold Solver.vsUse at this
    exact this
  · intro h
    refine ⟨h.edges, h.nodes, h.aggs, ?_, by rw [hm]; exact h.factors⟩
    intro v hv
    obtain ⟨k, hk⟩ := List.mem_iff_getElem?.1 hv
    obtain ⟨n, hn, rfl⟩ := vs_get' hk
    have := h.vs n (List.mem_of_getElem? hn)
    unfold Solver.vsUse
    exact this

theorem costIs_iff (σ : Nat → Option ℚ) (n : TNode) (c : ℚ) : Solver.CostIs S.model σ n c ↔ S.CostIs σ n c := by
  have hF : ∀ is cs, VsCostsAre S.model σ is cs ↔ List.Forall₂ (fun k d => k < S.vsNodes.length ∧ ValueIs σ (S.vsCost k) 0 d) is cs := by
    intro is cs
    unfold VsCostsAre
    have : (fun (i : Nat) (c : ℚ) => ∃ v, S.model.vs[i]? = some v ∧ ValueIs σ v.cost 0 c) =
        fun k d => k < S.vsNodes.length ∧ ValueIs σ (S.vsCost k) 0 d := by
      funext i d
      apply propext
      constructor
      · rintro ⟨v, h1, h2⟩
        obtain ⟨m, h3, rfl⟩ := vs_get' h1
        exact ⟨(List.getElem?_eq_some_iff.1 h3).1, h2⟩
      · rintro ⟨h1, h2⟩
        exact ⟨_, vs_get (List.getElem?_eq_getElem h1), h2⟩
    rw [this]
  have hdata : S.model.data = S.data := rfl
  unfold Solver.CostIs Sim.CostIs
  rw [hdata]
  cases (S.data n.index).costAgg with
  | none =>
    constructor
    · rintro ⟨own, h1, h2⟩; exact ⟨own, [], h1, h2⟩
    · rintro ⟨own, _, h1, h2⟩; exact ⟨own, h1, h2⟩
  | some a =>
    cases a <;> simp only [hF] <;> constructor
    all_goals exact fun ⟨own, h1, cs, h2⟩ => ⟨own, cs, h1, h2⟩

theorem totalCost_eq (cost : TNode → ℚ) (f : Nat → ℚ) : Solver.totalCost S.model cost f = S.totalCost cost f := rfl

theorem shows (hv : S.Valid) {big negBig : ℚ} {s : SimState} (hi : Inv S big negBig s) (inp : Inp) (b : State.Bounds)
    (hb : S.bounds inp.metric = some b) : S.Shows inp (S.pre inp b s.network) (S.stepState inp b (S.pre inp b s.network)) := by
  refine ⟨rfl, rfl, ?_, ?_, ?_⟩
  · intro n hn hk
    obtain ⟨v, h1, _⟩ := pre_volume hi inp b (i := n.index) (by rw [kinds_get, node_get hv hn, Option.map_some, hk])
    exact ⟨v, h1, by simp [Sim.stepState, h1, Except.toOption]⟩
  · intro k n hn
    simp [Sim.stepState, hn]
  · intro k hk
    have hvol := (bounds_some hb).2 k hk
    have hlen : (S.pre inp b s.network).vs.length = S.vsNodes.length := by
      have := hi.wf.vs
      simp only [Sim.stateNet] at this
      simp [Sim.pre, preSolve, vsBefore, this]
    have hv' : (S.pre inp b s.network).vsVolume k = .ok ((S.pre inp b s.network).vs[k]'(by omega)).storage.volume := by
      unfold NetworkState.vsVolume
      rw [List.getElem?_eq_getElem (by omega)]
    refine ⟨_, _, _, hvol, hv', ?_⟩
    simp [Sim.stepState, hv', Except.toOption, availableBounds]

theorem defined_of_present {inp : Inp} {s : NetworkState} {st : StepState} (hs : S.Shows inp s st) (hp : S.Present inp.metric) :
    Defined S.model st := by
  refine ⟨?_, ?_, ?_, ?_, ?_, ?_⟩
  · rw [hs.metric]
    intro n hn h
    obtain ⟨c, hc⟩ := hp.costs n hn h
    exact ⟨c, (costIs_iff _ _ _).2 hc⟩
  · rw [hs.metric]; exact hp.flows
  · intro n hn hk
    obtain ⟨v, _, h2⟩ := hs.volume n hn hk
    obtain ⟨lo, hi, h3, h4⟩ := hp.volumes n hn hk
    rw [hs.metric]
    exact ⟨⟨v, h2⟩, ⟨lo, h3⟩, ⟨hi, h4⟩⟩
  · rw [hs.metric]; exact hp.aggs
  · rw [hs.metric]; exact hp.factors
  · intro k hk _
    obtain ⟨lo, hi, v, _, _, h⟩ := hs.vs k (by simpa [Sim.model] using hk)
    exact ⟨_, h⟩

/-! ## Completing a step -/

theorem atLeast_value {σ : Nat → Option ℚ} {m : Option Metric} {d l v : ℚ} (h : AtLeast σ m d v) (hl : ValueIs σ m d l) : l ≤ v := by
  cases m with
  | none => simp only [AtLeast, ValueIs] at h hl; rw [hl]; exact h
  | some m =>
    obtain ⟨l', h1, h2⟩ := h
    simp only [ValueIs] at hl
    rw [hl] at h1
    cases h1
    exact h2

theorem atMost_value {σ : Nat → Option ℚ} {m : Option Metric} {d u v : ℚ} (h : AtMost σ m d v) (hu : ValueIs σ m d u) : v ≤ u := by
  cases m with
  | none => simp only [AtMost, ValueIs] at h hu; rw [hu]; exact h
  | some m =>
    obtain ⟨l', h1, h2⟩ := h
    simp only [ValueIs] at hu
    rw [hu] at h1
    cases h1
    exact h2

/-- Volume of a storage after an allowed step. -/
theorem allowed_volume (hv' : S.Valid) {inp : Inp} {pre : NetworkState} {st : StepState} (hs : S.Shows inp pre st) {f : Nat → ℚ}
    (ha : AllowedChoice S.model st f) {n : TNode} (hn : n ∈ S.net.nodes) (hk : n.kind = .storage) {v lo hi : ℚ}
    (hv : pre.nodeVolume n.index = .ok v) (hb : VolumesAre inp.metric (S.data n.index).minVolume (S.data n.index).maxVolume lo hi) :
    lo ≤ v + inp.t.days * nodeFlow f n ∧ v + inp.t.days * nodeFlow f n ≤ hi := by
  have hno := ha.nodes n hn (not_group hv' hn hk)
  unfold NodeOk at hno
  rw [if_pos hk] at hno
  obtain ⟨v', h1, h2, h3⟩ := hno
  obtain ⟨v'', h4, h5⟩ := hs.volume n hn hk
  rw [h5] at h1
  rw [hv] at h4
  cases h4
  cases h1
  rw [hs.metric, hs.days] at h2 h3
  exact ⟨atLeast_value h2 hb.1, atMost_value h3 hb.2⟩

theorem storageRow {inp : Inp} {f : Nat → ℚ} {b : State.Bounds} (hv : S.Valid) (hd : 0 < inp.t.days) {n : TNode}
    (hn : n ∈ S.net.nodes) (hk : n.kind = .storage) {v : ℚ}
    (h : (b.node n.index).1 ≤ v + inp.t.days * nodeFlow f n ∧ v + inp.t.days * nodeFlow f n ≤ (b.node n.index).2) :
    StorageRow S.stateNet.edges n.index v ⟨inp.t, b, f⟩ := by
  unfold StorageRow
  rw [inSum_eq hv f (node_get hv hn), outSum_eq hv f (node_get hv hn)]
  unfold nodeFlow at h
  simp only [hk] at h
  simp only
  rw [div_le_iff₀ hd, le_div_iff₀ hd]
  constructor <;> linarith [h.1, h.2]

theorem gain_eq (hv : S.Valid) {n : TNode} (hn : n ∈ S.net.nodes) (hk : n.kind = .storage) (t : Timestep) (b : State.Bounds) (f : Nat → ℚ) :
    gain S.stateNet.edges n.index ⟨t, b, f⟩ = t.days * nodeFlow f n := by
  unfold gain
  rw [inSum_eq hv f (node_get hv hn), outSum_eq hv f (node_get hv hn)]
  unfold nodeFlow
  simp only [hk]
  ring

theorem vsRow {inp : Inp} {pre : NetworkState} {st : StepState} (hv : S.Valid) (hs : S.Shows inp pre st) (hd : 0 < inp.t.days) {f : Nat → ℚ}
    (ha : AllowedChoice S.model st f) {k : Nat} {n : VSNode} (hn : S.vsNodes[k]? = some n) (hact : n.isActive inp.t = true) {v lo hi : ℚ}
    (hvol : pre.vsVolume k = .ok v) (hb : VolumesAre inp.metric (S.vsMin k) (S.vsMax k) lo hi) :
    VSRow S.stateNet.kinds S.stateNet.edges n v lo hi inp.t.days f := by
  have hk := (List.getElem?_eq_some_iff.1 hn).1
  obtain ⟨lo', hi', v', h1, h2, h3⟩ := hs.vs k hk
  obtain ⟨rfl, rfl⟩ := hb.unique h1
  rw [hvol] at h2
  cases h2
  have hmv : S.model.vs[k]? = some ⟨n.nodesWithFactors, S.vsCost k⟩ := by simp [Sim.model, hn]
  obtain ⟨a, m, h4, h5, h6⟩ := ha.vs k _ hmv (by rw [hs.active k n hn]; exact hact)
  rw [h3] at h4
  simp only [Option.some.injEq, Prod.mk.injEq] at h4
  obtain ⟨rfl, rfl⟩ := h4
  rw [hs.days] at h5 h6
  unfold VSRow
  rw [sum_lpUse hv f (List.mem_of_getElem? hn)]
  unfold Solver.vsUse at h5 h6
  simp only [VSNode.nodesWithFactors] at h5 h6
  have hnet : S.model.net = S.net := rfl
  rw [hnet] at h5 h6
  unfold availableBounds
  rw [div_le_iff₀ hd, le_div_iff₀ hd]
  constructor <;> simp only <;> linarith

/-- The answer of a sound solver completes the step. -/
theorem complete_step (hv : S.Valid) {big negBig : ℚ} {s : SimState} (hi : Inv S big negBig s) (inp : Inp) (b : State.Bounds)
    (hd : 0 < inp.t.days) (hb : S.bounds inp.metric = some b)
    (hstart : ∀ (k : Nat) (n : VSNode) (lo hi : ℚ), S.vsNodes[k]? = some n →
      VolumesAre inp.metric (S.vsMin k) (S.vsMax k) lo hi → lo ≤ n.initialVolume.get hi ∧ n.initialVolume.get hi ≤ hi)
    (hro : RollOk S inp) (hin : inp.t.index = 0 ∨ VsIn S inp s.network) {f : Nat → ℚ}
    (ha : AllowedChoice S.model (S.stepState inp b (S.pre inp b s.network)) f) :
    ∃ n, State.step S.stateNet (S.iv inp.metric) ⟨inp.t, b, f⟩ s.network = .ok n := by
  have hs := shows hv hi inp b hb
  obtain ⟨hb1, hb2⟩ := bounds_some hb
  apply C12_feasible_completes hi.wf hd (membersOk hv)
  · exact fun i hk => link_balance hv ha.balanced i hk
  · intro i v hk hvol
    rw [kinds_get] at hk
    cases hn : S.net.nodes[i]? with
    | none => simp [hn] at hk
    | some n =>
      simp only [hn, Option.map_some, Option.some.injEq] at hk
      have hmem := List.mem_of_getElem? hn
      have hix := (wf hv).nodeIndex i n hn
      subst hix
      exact storageRow hv hd hmem hk (allowed_volume hv hs ha hmem hk hvol (hb1 n hmem hk))
  · intro k n v hn hvol
    have hn' : S.vsNodes[k]? = some n := hn
    obtain ⟨v', h1, h2, h3, _⟩ := pre_vs hv hi inp b hd hb hstart hro hin hn'
    have h1 := vsVolume_get h1
    rw [pre_eq inp b f] at h1
    rw [hvol] at h1
    cases h1
    refine ⟨h2, h3, fun hact => ?_⟩
    exact vsRow hv hs hd ha hn' hact hvol (hb2 k (List.getElem?_eq_some_iff.1 hn').1)

/-- A completed step. -/
theorem stepOk (hv : S.Valid) {big negBig : ℚ} {s : SimState} (hi : Inv S big negBig s) (inp : Inp) (b : State.Bounds)
    (hd : 0 < inp.t.days) (hb : S.bounds inp.metric = some b)
    (hstart : ∀ (k : Nat) (n : VSNode) (lo hi : ℚ), S.vsNodes[k]? = some n →
      VolumesAre inp.metric (S.vsMin k) (S.vsMax k) lo hi → lo ≤ n.initialVolume.get hi ∧ n.initialVolume.get hi ≤ hi)
    (hro : RollOk S inp) (hin : inp.t.index = 0 ∨ VsIn S inp s.network) {f : Nat → ℚ}
    (ha : AllowedChoice S.model (S.stepState inp b (S.pre inp b s.network)) f) {post : NetworkState}
    (h : State.step S.stateNet (S.iv inp.metric) ⟨inp.t, b, f⟩ s.network = .ok post) :
    S.StepOk inp (S.pre inp b s.network) f post := by
  have hs := shows hv hi inp b hb
  obtain ⟨hb1, hb2⟩ := bounds_some hb
  have hwpre : WellFormed S.stateNet (S.pre inp b s.network) := by
    obtain ⟨w1, w2, w3, w4⟩ := hi.wf
    have p1 : (S.pre inp b s.network).nodes.length = s.network.nodes.length := by simp [Sim.pre, preSolve, nodesBefore]
    have p2 : (S.pre inp b s.network).edges.length = s.network.edges.length := rfl
    have p3 : (S.pre inp b s.network).vs.length = s.network.vs.length := by simp [Sim.pre, preSolve, vsBefore]
    exact ⟨by omega, by omega, fun e he => by rw [p1, p2]; exact w3 e he, w4⟩
  refine ⟨(allowed_iff hv hs f).1 ha, ?_, ?_, ?_⟩
  · intro e he
    have hfl := (C09_node_flows hwpre (b := b) (t := inp.t) (flow := f) (s' := post) h).2
    have hg := List.getElem?_eq_getElem he
    have := hfl _ (show S.net.edges[e] ∈ S.stateNet.edges from List.getElem_mem he)
    rw [((wf hv).index e _ hg).1] at this
    exact this
  · intro n hn hk
    have hkk : S.stateNet.kinds[n.index]? = some .storage := by rw [kinds_get, node_get hv hn, Option.map_some, hk]
    obtain ⟨v, hvol, _⟩ := pre_volume hi inp b hkk
    have hbd := allowed_volume hv hs ha hn hk hvol (hb1 n hn hk)
    have := C11_feasible_step (inp := ⟨inp.t, b, f⟩) h hkk hd hvol (storageRow hv hd hn hk hbd)
    rw [gain_eq hv hn hk] at this
    exact ⟨_, _, v, hb1 n hn hk, hvol, this.1, this.2.1, this.2.2⟩
  · intro k n hn
    have hlt := (List.getElem?_eq_some_iff.1 hn).1
    have hmem := List.mem_of_getElem? hn
    obtain ⟨v0, h1, h2, h3, _⟩ := pre_vs hv hi inp b hd hb hstart hro hin hn
    have h1 := vsVolume_get h1
    obtain ⟨v, hv0⟩ : ∃ v, v = v0.storage.volume := ⟨_, rfl⟩
    rw [← hv0] at h1 h2 h3
    refine ⟨_, _, v, hb2 k hlt, h1, ?_⟩
    unfold Sim.use
    by_cases hact : n.isActive inp.t = true
    · rw [if_pos hact, ← vsUse_eq hv ha.balanced hmem]
      have := C12_feasible_step (inp := ⟨inp.t, b, f⟩) hi.wf h (k := k) (n := n) hn (membersOk hv n hmem) hact hd h1 h2 h3
        (fun i _ hk => link_balance hv ha.balanced i hk) (vsRow hv hs hd ha hn hact h1 (hb2 k hlt))
      rw [mul_comm inp.t.days]
      exact this
    · rw [if_neg hact]
      have := C12_inactive (inp := ⟨inp.t, b, f⟩) hi.wf h (k := k) (n := n) hn (membersOk hv n hmem) (by simpa using hact) h1 h2 h3
      simp only [mul_zero, sub_zero]
      exact ⟨this, h2, h3⟩

theorem flow_eq (s : Built) (x : Nat → ℚ) : colFlow s x = s.flow x := rfl

/-- The state of a virtual storage after a step. -/
theorem step_vs_get (hv : S.Valid) {big negBig : ℚ} {s : SimState} (hi : Inv S big negBig s) {inp : Inp} {b : State.Bounds} {f : Nat → ℚ}
    {post : NetworkState} (h : State.step S.stateNet (S.iv inp.metric) ⟨inp.t, b, f⟩ s.network = .ok post) {k : Nat} {n : VSNode}
    (hn : S.vsNodes[k]? = some n) : ∃ v v', s.network.vs[k]? = some v ∧ post.vs[k]? = some v' ∧
      v'.history = if n.isActive inp.t
        then (n.before inp.t (b.vs k).2 v).history.map (·.addFlow (State.vsUse S.stateNet.kinds S.stateNet.edges n f))
        else (n.before inp.t (b.vs k).2 v).history := by
  obtain ⟨v, hv0, _⟩ := pre_vs_get hi inp b hn
  obtain ⟨v', hv', hr⟩ := step_vs hi.wf h (k := k) (n := n) hn hv0 (membersOk hv n (List.mem_of_getElem? hn))
  exact ⟨v, v', hv0, hv', hr.2.2.2.2.2⟩

theorem inv_step (hv : S.Valid) {big negBig : ℚ} {s : SimState} (hi : Inv S big negBig s) {inp : Inp} {b : State.Bounds} {f : Nat → ℚ}
    {post : NetworkState} (h : State.step S.stateNet (S.iv inp.metric) ⟨inp.t, b, f⟩ s.network = .ok post) {st : StepState} {s' : Built}
    (hs : Solver.step S.model s.solver st = .ok s') : Inv S big negBig ⟨post, s'⟩ := by
  refine ⟨step_wellFormed hi.wf h, fun i hk => step_keeps_storage h hk (hi.vol i hk), Reach.step _ _ _ hi.reach hs, ?_⟩
  intro k n w hn hw
  obtain ⟨v, v', h1, h2, h3⟩ := step_vs_get hv hi h hn
  have hw' : post.vs[k]? = some w := hw
  rw [h2] at hw'
  cases hw'
  have := before_size (t := inp.t) (hi := (b.vs k).2) (hi.hist k n v hn h1)
  rw [h3]
  split_ifs
  · rw [Option.map_map, ← this]
    rfl
  · exact this

theorem nodeFlow_nonneg {f : Nat → ℚ} {n : TNode} (h : ∀ e, e ∈ n.incoming ∨ e ∈ n.outgoing → 0 ≤ f e) (hk : n.kind ≠ .storage) :
    0 ≤ nodeFlow f n := by
  have hs1 : 0 ≤ (n.incoming.map f).sum := List.sum_nonneg (by
    intro x hx
    obtain ⟨i, hi, rfl⟩ := List.mem_map.1 hx
    exact h i (Or.inl hi))
  have hs2 : 0 ≤ (n.outgoing.map f).sum := List.sum_nonneg (by
    intro x hx
    obtain ⟨i, hi, rfl⟩ := List.mem_map.1 hx
    exact h i (Or.inr hi))
  unfold nodeFlow
  cases hn : n.kind with
  | storage => exact absurd hn hk
  | input => exact hs2
  | output => exact hs1
  | link => exact hs2

/-- After a step virtual storages lie within the bounds of that step. -/
theorem vsIn_step (hv : S.Valid) {big negBig : ℚ} {s : SimState} (hi : Inv S big negBig s) (inp : Inp) (b : State.Bounds)
    (hd : 0 < inp.t.days) (hb : S.bounds inp.metric = some b)
    (hstart : ∀ (k : Nat) (n : VSNode) (lo hi : ℚ), S.vsNodes[k]? = some n →
      VolumesAre inp.metric (S.vsMin k) (S.vsMax k) lo hi → lo ≤ n.initialVolume.get hi ∧ n.initialVolume.get hi ≤ hi)
    (hro : RollOk S inp) (hin : inp.t.index = 0 ∨ VsIn S inp s.network) {f : Nat → ℚ}
    (ha : AllowedChoice S.model (S.stepState inp b (S.pre inp b s.network)) f) {post : NetworkState}
    (h : State.step S.stateNet (S.iv inp.metric) ⟨inp.t, b, f⟩ s.network = .ok post) : VsIn S inp post := by
  intro k n lo hi' hn hvol
  have hlt := (List.getElem?_eq_some_iff.1 hn).1
  have hmem := List.mem_of_getElem? hn
  obtain ⟨lo', hi'', v, hb', h1, h2, h3, h4⟩ := (stepOk hv hi inp b hd hb hstart hro hin ha h).vs k n hn
  obtain ⟨rfl, rfl⟩ := VolumesAre.unique hvol hb'
  obtain ⟨rfl, rfl⟩ := VolumesAre.unique hvol ((bounds_some hb).2 k hlt)
  obtain ⟨u, hu, _, _, hu3⟩ := pre_vs hv hi inp b hd hb hstart hro hin hn
  obtain ⟨v0, v', g1, g2, g3⟩ := step_vs_get hv hi h hn
  obtain ⟨v1, g1', g4⟩ := pre_vs_get hi inp b hn
  rw [g1] at g1'
  cases g1'
  rw [hu] at g4
  simp only [Option.some.injEq] at g4
  rw [← g4] at g3
  rw [vsVolume_get hu] at h1
  cases h1
  rw [vsVolume_get g2] at h2
  simp only [Except.ok.injEq] at h2
  refine ⟨v', g2, by rw [h2]; exact h3, by rw [h2]; exact h4, ?_⟩
  intro hh hhh
  rw [hhh] at g3
  rw [h2]
  by_cases hact : n.isActive inp.t = true
  · rw [if_pos hact] at g3
    obtain ⟨h0, hh0, rfl⟩ := Option.map_eq_some_iff.1 g3.symm
    obtain ⟨a1, a2⟩ := hu3 h0 hh0
    have hsz := before_size (t := inp.t) (hi := (b.vs k).2) (hi.hist k n v0 hn g1)
    rw [← g4, hh0] at hsz
    have hfac := (hv.rolling n hmem h0.size hsz.symm).2
    have huse : S.use n inp.t f = State.vsUse S.stateNet.kinds S.stateNet.edges n f := by
      rw [vsUse_eq hv ha.balanced hmem]
      unfold Sim.use
      rw [if_pos hact]
    have hnn : 0 ≤ State.vsUse S.stateNet.kinds S.stateNet.edges n f := by
      rw [vsUse_eq hv ha.balanced hmem]
      apply List.sum_nonneg
      intro x hx
      obtain ⟨⟨i, c⟩, hp, rfl⟩ := List.mem_map.1 hx
      obtain ⟨hp1, hp2⟩ := List.of_mem_zip hp
      refine mul_nonneg (hfac c hp2) ?_
      obtain ⟨t, ht, hk⟩ := hv.members n hmem i hp1
      have hflow : flowAt S.net f i = nodeFlow f t := by unfold flowAt; rw [ht]; rfl
      simp only [hflow]
      exact nodeFlow_nonneg (fun e he => ha.nonneg e (edges_in_range (M := S.model) (wf hv) t (List.mem_of_getElem? ht) e he)) hk
    rw [huse]
    simp only [History.addFlow, List.mem_append, List.mem_singleton, List.sum_append, List.sum_cons, List.sum_nil, add_zero]
    refine ⟨?_, by linarith⟩
    rintro q (hq | rfl)
    · exact a1 q hq
    · exact hnn
  · rw [if_neg hact] at g3
    have huse : S.use n inp.t f = 0 := by unfold Sim.use; rw [if_neg hact]
    obtain ⟨a1, a2⟩ := hu3 hh g3.symm
    rw [huse]
    exact ⟨a1, by linarith⟩

theorem carries (hv : S.Valid) {big negBig : ℚ} {s : SimState} (hi : Inv S big negBig s) (inp : Inp) (b : State.Bounds)
    (hb : S.bounds inp.metric = some b) : S.Carries inp s.network (S.pre inp b s.network) := by
  constructor
  · intro n hn hk
    obtain ⟨v, h1, h2⟩ := pre_volume hi inp b (i := n.index) (by rw [kinds_get, node_get hv hn, Option.map_some, hk])
    refine ⟨_, _, (bounds_some hb).1 n hn hk, ?_⟩
    by_cases h0 : inp.t.index = 0
    · rw [if_pos h0] at h2 ⊢
      rw [h1, h2]
    · rw [if_neg h0] at h2 ⊢
      rw [h1, h2]
  · intro k n hn
    have hlt := (List.getElem?_eq_some_iff.1 hn).1
    obtain ⟨v, hv0, hpre⟩ := pre_vs_get hi inp b hn
    have hnew := vsVolume_get hpre
    have hold := vsVolume_get hv0
    have hrec : ∀ u : VSState, u.history.map (·.size) = n.rollingWindow →
        (if n.rollingWindow.isSome then u.recover inp.t else u).storage.volume = u.storage.volume + inp.t.days * given u ∧
          (n.rollingWindow = none → given u = 0) := by
      intro u hu
      cases hroll : n.rollingWindow with
      | none =>
        rw [hroll] at hu
        have : u.history = none := by simpa using hu
        simp [given, this]
      | some w =>
        simp only [Option.isSome_some, if_true, reduceCtorEq, false_implies, and_true]
        unfold VSState.recover given
        cases u.history with
        | none => simp
        | some h => simp only [StorageState.addIn]; ring
    have hsize := hi.hist k n v hn hv0
    have happly : (n.applyReset inp.t (b.vs k).2 v).storage.volume = resetTo n (b.vs k).2 := by
      unfold VSNode.applyReset resetTo
      cases n.rollingWindow <;> cases n.resetVolume <;> rfl
    by_cases hr : n.doReset inp.t v.lastReset = true
    · have hbefore : n.before inp.t (b.vs k).2 v = if n.rollingWindow.isSome then (n.applyReset inp.t (b.vs k).2 v).recover inp.t
          else n.applyReset inp.t (b.vs k).2 v := by unfold VSNode.before; simp [hr]
      have hasz : (n.applyReset inp.t (b.vs k).2 v).history.map (·.size) = n.rollingWindow := by
        unfold VSNode.applyReset
        cases hroll : n.rollingWindow with
        | none => rw [hroll] at hsize; simpa [VSState.resetVolume] using hsize
        | some w =>
          rw [hroll] at hsize
          obtain ⟨h0, hh0, hsz⟩ := Option.map_eq_some_iff.1 hsize
          simp [VSState.resetVolume, VSState.resetHistory, hh0, History.reset, hsz]
      obtain ⟨h1, h2⟩ := hrec _ hasz
      rw [hbefore, h1, happly] at hnew
      refine ⟨_, _, _, _, (bounds_some hb).2 k hlt, hnew, h2, Or.inl rfl, fun _ => rfl, ?_⟩
      intro h0 hact hnever
      exfalso
      simp [VSNode.doReset, Timestep.isFirst, h0, hact, hnever] at hr
    · have hbefore : n.before inp.t (b.vs k).2 v = if n.rollingWindow.isSome then v.recover inp.t else v := by
        unfold VSNode.before; simp [hr]
      obtain ⟨h1, h2⟩ := hrec _ hsize
      rw [hbefore, h1] at hnew
      refine ⟨_, _, _, _, (bounds_some hb).2 k hlt, hnew, h2, Or.inr hold, ?_, fun _ _ _ => hold⟩
      intro hc
      exfalso
      apply hr
      rcases hc with h0 | hact
      · simp [VSNode.doReset, Timestep.isFirst, h0]
      · simp [VSNode.doReset, hact]

/-- One step. -/
theorem step_main (hv : S.Valid) {big negBig : ℚ} {s : SimState} (hi : Inv S big negBig s) (inp : Inp)
    (hd : 0 < inp.t.days) (hsound : ∀ lp x, inp.solve lp = some x → lp.Feasible x)
    (hstart : ∀ (k : Nat) (n : VSNode) (lo hi : ℚ), S.vsNodes[k]? = some n →
      VolumesAre inp.metric (S.vsMin k) (S.vsMax k) lo hi → lo ≤ n.initialVolume.get hi ∧ n.initialVolume.get hi ≤ hi)
    (hro : RollOk S inp) (hin : inp.t.index = 0 ∨ VsIn S inp s.network) :
    (∀ e, S.step inp s = .error e → FailsFor S big negBig inp s.network e) ∧
    ∀ s' r, S.step inp s = .ok (s', r) → Inv S big negBig s' ∧ r.inp = inp ∧ r.post = s'.network ∧
      S.Carries inp s.network r.pre ∧ S.StepOk inp r.pre r.flow r.post ∧ VsIn S inp s'.network := by
  unfold Sim.step
  cases hb : S.bounds inp.metric with
  | none =>
    refine ⟨?_, fun s' r h => by cases h⟩
    intro e h
    simp only [Except.error.injEq] at h
    subst h
    exact bounds_none hb
  | some b =>
    simp only
    have hsh := shows hv hi inp b hb
    cases hst : Solver.step S.model s.solver (S.stepState inp b (S.pre inp b s.network)) with
    | error e' =>
      refine ⟨?_, fun s' r h => by cases h⟩
      intro e h
      simp only [Except.error.injEq] at h
      subst h
      intro hp
      obtain ⟨s', hs'⟩ := (C86_defined S.model hv.model hv.constant hv.factors S.sets hv.groups big negBig s.solver hi.reach _).2 (defined_of_present hsh hp)
      rw [hst] at hs'
      cases hs'
    | ok s' =>
      have hfe := C86_sound S.model hv.model hv.constant hv.factors S.sets hv.groups big negBig s.solver s' hi.reach _ hd hst
      simp only
      cases hx : inp.solve s'.lp with
      | none =>
        refine ⟨?_, fun s' r h => by cases h⟩
        intro e h
        simp only [Except.error.injEq] at h
        subst h
        refine ⟨⟨_, hx⟩, fun hbig hc => ⟨_, carries hv hi inp b hb, ?_⟩⟩
        rintro ⟨f, hf1, hf2⟩
        rw [← allowed_iff hv hsh] at hf1
        rw [← within_iff hsh] at hf2
        obtain ⟨x, hx1, _⟩ := C86_represented S.model hv.model hv.constant hv.factors S.sets hv.groups big negBig hbig s.solver s' hi.reach _ hd hst f hf1 hf2
        obtain ⟨y, hy⟩ := hc s'.lp ⟨x, hx1⟩
        rw [hx] at hy
        cases hy
      | some x =>
        have ha := (hfe x (hsound _ _ hx)).1
        rw [← flow_eq] at ha
        obtain ⟨post, hpost⟩ := complete_step hv hi inp b hd hb hstart hro hin ha
        have hap : applySolution S.stateNet b inp.t (colFlow s' x) (S.pre inp b s.network) = .ok post := hpost
        simp only [hap]
        refine ⟨fun e h => (by cases h), ?_⟩
        intro s1 r h
        simp only [Except.ok.injEq, Prod.mk.injEq] at h
        obtain ⟨rfl, rfl⟩ := h
        exact ⟨inv_step hv hi hpost hst, rfl, rfl, carries hv hi inp b hb, stepOk hv hi inp b hd hb hstart hro hin ha hpost,
          vsIn_step hv hi inp b hd hb hstart hro hin ha hpost⟩

/-! ## The balance of the whole network -/

theorem connected (hv : S.Valid) {n : TNode} (hn : n ∈ S.net.nodes) : Verif.Topology.Connected n.kind n.incoming n.outgoing := by
  obtain ⟨tb, htb⟩ := hv.model.built
  have hvalid := (Verif.Topology.C49_build_iff tb).1 ⟨_, htb⟩
  obtain ⟨hl, _, hnodes, _⟩ := Verif.Topology.C49_topology tb _ htb
  obtain ⟨k, hk'⟩ := List.mem_iff_getElem?.1 hn
  have hk : k < tb.nodes.length := by rw [← hl]; exact (List.getElem?_eq_some_iff.1 hk').1
  have h1 := hnodes k _ (List.getElem?_eq_getElem hk)
  have hnet : S.model.net = S.net := rfl
  rw [hnet, hk'] at h1
  simp only [Option.some.injEq] at h1
  rw [h1]
  exact hvalid.connected _ (List.getElem_mem hk)

theorem sum_nodes (g : TNode → ℚ) : (S.net.nodes.map g).sum =
    ((List.range S.net.nodes.length).map fun k => ((S.net.nodes[k]?).map g).getD 0).sum := by
  congr 1
  apply List.ext_getElem?
  intro k
  rw [List.getElem?_map, List.getElem?_map]
  by_cases hk : k < S.net.nodes.length
  · rw [List.getElem?_range hk, List.getElem?_eq_getElem hk]; simp [List.getElem?_eq_getElem hk]
  · rw [List.getElem?_eq_none (by omega), List.getElem?_eq_none (by simpa using hk)]; rfl

theorem sum_in_out (hv : S.Valid) (f : Nat → ℚ) :
    (S.net.nodes.map fun n => (n.incoming.map f).sum).sum = (S.net.nodes.map fun n => (n.outgoing.map f).sum).sum := by
  have hw := wf hv
  have hfrom : ∀ e ∈ S.net.edges, e.fromNode < S.net.nodes.length := by
    intro e he
    obtain ⟨k, hk⟩ := List.mem_iff_getElem?.1 he
    exact (hw.index k e hk).2.1
  have hto : ∀ e ∈ S.net.edges, e.toNode < S.net.nodes.length := by
    intro e he
    obtain ⟨k, hk⟩ := List.mem_iff_getElem?.1 he
    exact (hw.index k e hk).2.2
  have e1 := sum_by_node S.net.edges (·.fromNode) S.net.nodes.length hfrom (fun _ => 1) (fun e => f e.index)
  have e2 := sum_by_node S.net.edges (·.toNode) S.net.nodes.length hto (fun _ => 1) (fun e => f e.index)
  rw [sum_nodes, sum_nodes]
  refine Eq.trans ?_ (e2.trans (e1.symm.trans ?_))
  · congr 1
    apply List.map_congr_left
    intro k hk
    have hn := List.getElem?_eq_getElem (List.mem_range.1 hk)
    rw [hn, Option.map_some, Option.getD_some, hw.incoming k _ hn, List.map_map, one_mul]
    rfl
  · congr 1
    apply List.map_congr_left
    intro k hk
    have hn := List.getElem?_eq_getElem (List.mem_range.1 hk)
    rw [hn, Option.map_some, Option.getD_some, hw.outgoing k _ hn, List.map_map, one_mul]
    rfl

theorem sum_kinds (l : List TNode) (g : TNode → ℚ) : (l.map g).sum =
    ((l.filter fun n => n.kind = .input).map g).sum + ((l.filter fun n => n.kind = .output).map g).sum +
    ((l.filter fun n => n.kind = .link).map g).sum + ((l.filter fun n => n.kind = .storage).map g).sum := by
  induction l with
  | nil => simp
  | cons n l ih =>
    rw [List.map_cons, List.sum_cons, ih]
    cases h : n.kind <;> simp [h] <;> ring

/-- What is stored in a step is what is supplied less what is delivered. -/
theorem stored_flow (hv : S.Valid) {f : Nat → ℚ} (hb : Balanced S.net f) :
    ((S.net.nodes.filter fun n => n.kind = .storage).map (nodeFlow f)).sum = S.supplied f - S.delivered f := by
  have h0 : (S.net.nodes.map fun n => (n.incoming.map f).sum - (n.outgoing.map f).sum).sum = 0 := by
    have := sum_in_out hv f
    have hsub : ∀ l : List TNode, (l.map fun n => (n.incoming.map f).sum - (n.outgoing.map f).sum).sum =
        (l.map fun n => (n.incoming.map f).sum).sum - (l.map fun n => (n.outgoing.map f).sum).sum := by
      intro l
      induction l with
      | nil => simp
      | cons n l ih => simp only [List.map_cons, List.sum_cons, ih]; ring
    rw [hsub]
    linarith
  rw [sum_kinds] at h0
  have hneg : ∀ (l : List TNode) (g g' : TNode → ℚ), (∀ n ∈ l, g n = -g' n) → (l.map g).sum = -(l.map g').sum := by
    intro l g g' h
    induction l with
    | nil => simp
    | cons n l ih =>
      simp only [List.map_cons, List.sum_cons, ih (fun m hm => h m (List.mem_cons_of_mem _ hm)), h n (List.mem_cons_self ..)]
      ring
  have hin : ((S.net.nodes.filter fun n => n.kind = .input).map fun n => (n.incoming.map f).sum - (n.outgoing.map f).sum).sum = -S.supplied f := by
    apply hneg
    intro n hn
    simp only [List.mem_filter, decide_eq_true_eq] at hn
    have := connected hv hn.1
    rw [hn.2] at this
    unfold nodeFlow
    simp [hn.2, this.1]
  have hout : ((S.net.nodes.filter fun n => n.kind = .output).map fun n => (n.incoming.map f).sum - (n.outgoing.map f).sum).sum = S.delivered f := by
    unfold Sim.delivered
    congr 1
    apply List.map_congr_left
    intro n hn
    simp only [List.mem_filter, decide_eq_true_eq] at hn
    have := connected hv hn.1
    rw [hn.2] at this
    unfold nodeFlow
    simp [hn.2, this.2]
  have hlink : ((S.net.nodes.filter fun n => n.kind = .link).map fun n => (n.incoming.map f).sum - (n.outgoing.map f).sum).sum = 0 := by
    rw [hneg _ _ (fun _ => 0)]
    · simp
    · intro n hn
      simp only [List.mem_filter, decide_eq_true_eq] at hn
      rw [hb n hn.1 hn.2]
      ring
  have hst : ((S.net.nodes.filter fun n => n.kind = .storage).map fun n => (n.incoming.map f).sum - (n.outgoing.map f).sum).sum =
      ((S.net.nodes.filter fun n => n.kind = .storage).map (nodeFlow f)).sum := by
    congr 1
    apply List.map_congr_left
    intro n hn
    simp only [List.mem_filter, decide_eq_true_eq] at hn
    unfold nodeFlow
    simp [hn.2]
  rw [hin, hout, hlink, hst] at h0
  linarith

/-- The volume stored after a step. -/
theorem stored_step (hv : S.Valid) {inp : Inp} {pre post : NetworkState} {f : Nat → ℚ} (h : S.StepOk inp pre f post) :
    S.stored post = S.stored pre + inp.t.days * (S.supplied f - S.delivered f) := by
  have ha := h.allowed
  rw [← stored_flow hv ha.balanced]
  unfold Sim.stored
  have key : ∀ l : List TNode, (∀ n ∈ l, n ∈ S.net.nodes ∧ n.kind = .storage) →
      (l.map fun n => (post.nodeVolume n.index).toOption.getD 0).sum =
        (l.map fun n => (pre.nodeVolume n.index).toOption.getD 0).sum + inp.t.days * (l.map (nodeFlow f)).sum := by
    intro l
    induction l with
    | nil => simp
    | cons n l ih =>
      intro hl
      obtain ⟨hn, hk⟩ := hl n (List.mem_cons_self ..)
      obtain ⟨lo, hi, v, _, h1, h2, _⟩ := h.storage n hn hk
      have e1 : (post.nodeVolume n.index).toOption.getD 0 = v + inp.t.days * nodeFlow f n := by rw [h2]; rfl
      have e2 : (pre.nodeVolume n.index).toOption.getD 0 = v := by rw [h1]; rfl
      simp only [List.map_cons, List.sum_cons, ih (fun m hm => hl m (List.mem_cons_of_mem _ hm)), e1, e2]
      ring
  apply key
  intro n hn
  simpa only [List.mem_filter, decide_eq_true_eq] using hn

end Verif.Simulation
