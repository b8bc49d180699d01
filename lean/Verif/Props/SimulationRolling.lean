import Verif.Props.Simulation

/-! # C60 for licences with a rolling window: what is given back, and what may be used within the window -/

namespace Verif.Simulation

open Verif.State Verif.Solver Verif.Time

variable {S : Sim}

/-- A completed step, taken apart. -/
theorem step_state {inp : Inp} {s s' : SimState} {r : Record} (h : S.step inp s = .ok (s', r)) :
    ∃ b, S.bounds inp.metric = some b ∧ r.inp = inp ∧ r.pre = S.pre inp b s.network ∧ r.post = s'.network ∧
      State.step S.stateNet (S.iv inp.metric) ⟨inp.t, b, r.flow⟩ s.network = .ok s'.network := by
  unfold Sim.step at h
  cases hb : S.bounds inp.metric with
  | none => simp [hb] at h
  | some b =>
    simp only [hb] at h
    cases hso : Solver.step S.model s.solver (S.stepState inp b (S.pre inp b s.network)) with
    | error e => simp [hso] at h
    | ok t =>
      simp only [hso] at h
      cases hx : inp.solve t.lp with
      | none => simp [hx] at h
      | some x =>
        simp only [hx] at h
        cases hap : applySolution S.stateNet b inp.t (colFlow t x) (S.pre inp b s.network) with
        | error e => simp [hap] at h
        | ok post =>
          simp only [hap, Except.ok.injEq, Prod.mk.injEq] at h
          obtain ⟨rfl, rfl⟩ := h
          exact ⟨b, rfl, rfl, rfl, rfl, hap⟩

/-- What a licence has used in each step. -/
def usesOf (S : Sim) (n : VSNode) (rs : List Record) : List ℚ := rs.map fun r => S.use n r.inp.t r.flow

theorem lastN_cons {w : Nat} {past : List ℚ} (hw : 0 < w) (hlen : w ≤ past.length) :
    lastN w past = past.getD (past.length - w) 0 :: lastN (w - 1) past := by
  unfold lastN
  have hlt : past.length - w < past.length := by omega
  have e : past.length - (w - 1) = past.length - w + 1 := by omega
  rw [List.drop_eq_getElem_cons hlt, e, List.getD_eq_getElem?_getD, List.getElem?_eq_getElem hlt]
  rfl

theorem lastN_snoc {w : Nat} {past : List ℚ} (q : ℚ) (hw : 0 < w) (hlen : w ≤ past.length) :
    lastN w (past ++ [q]) = lastN (w - 1) past ++ [q] := by
  unfold lastN
  rw [List.length_append, List.length_singleton, List.drop_append_of_le_length (by omega)]
  congr 2
  omega

/-- One step of a rolling licence. -/
theorem rolling_step (hv : S.Valid) {big negBig : ℚ} {s s' : SimState} {r : Record} (hi : Inv S big negBig s) {inp : Inp}
    (hst : S.step inp s = .ok (s', r)) (hbal : Balanced S.net r.flow) {k w : Nat} {n : VSNode} (hn : S.vsNodes[k]? = some n)
    (hw : n.rollingWindow = some w) (hact : n.isActive inp.t = true) {past : List ℚ} (hlen : w ≤ past.length) {base : ℚ} {v : VSState}
    (h1 : s.network.vs[k]? = some v) (hu : ∀ lo hi, VolumesAre inp.metric (S.vsMin k) (S.vsMax k) lo hi →
      (if n.doReset inp.t v.lastReset then n.applyReset inp.t hi v else v).storage.volume = base ∧
      (if n.doReset inp.t v.lastReset then n.applyReset inp.t hi v else v).history = some ⟨lastN w past, w⟩) :
    r.pre.vsVolume k = .ok (base + inp.t.days * past.getD (past.length - w) 0) ∧
    ∃ v', s'.network.vs[k]? = some v' ∧ v'.history = some ⟨lastN w (past ++ [S.use n inp.t r.flow]), w⟩ := by
  obtain ⟨b, hb, _, hpre, _, hstep⟩ := step_state hst
  have hlt := (List.getElem?_eq_some_iff.1 hn).1
  have hpos := (hv.rolling n (List.mem_of_getElem? hn) w hw).1
  obtain ⟨hu1, hu2⟩ := hu _ _ ((bounds_some hb).2 k hlt)
  have hbefore : n.before inp.t (b.vs k).2 v =
      (if n.doReset inp.t v.lastReset then n.applyReset inp.t (b.vs k).2 v else v).recover inp.t := by
    unfold VSNode.before
    simp only [hw, Option.isSome_some, if_true]
  generalize (if n.doReset inp.t v.lastReset then n.applyReset inp.t (b.vs k).2 v else v) = u at hu1 hu2 hbefore
  have hpop : (⟨lastN w past, w⟩ : History).popFlow = (past.getD (past.length - w) 0, ⟨lastN (w - 1) past, w⟩) := by
    have hl : (lastN w past).length = w := by simp [lastN]; omega
    unfold History.popFlow
    rw [if_pos (by simp only; omega)]
    simp only [lastN_cons hpos hlen]
  have hrec : u.recover inp.t =
      ⟨u.lastReset, u.storage.addIn (past.getD (past.length - w) 0) inp.t.days, some ⟨lastN (w - 1) past, w⟩⟩ := by
    unfold VSState.recover
    rw [hu2]
    simp only [hpop]
  obtain ⟨v0, g1, g2⟩ := pre_vs_get hi inp b hn
  rw [h1] at g1
  cases g1
  refine ⟨?_, ?_⟩
  · rw [hpre, vsVolume_get g2, hbefore, hrec]
    simp only [StorageState.addIn, hu1]
    rw [mul_comm]
  · obtain ⟨v0, v', c1, c2, c3⟩ := step_vs_get hv hi hstep hn
    rw [h1] at c1
    cases c1
    refine ⟨v', c2, ?_⟩
    rw [c3, if_pos hact, hbefore, hrec]
    have huse : State.vsUse S.stateNet.kinds S.stateNet.edges n r.flow = S.use n inp.t r.flow := by
      rw [vsUse_eq hv hbal (List.mem_of_getElem? hn)]
      unfold Sim.use
      rw [if_pos hact]
    simp only [Option.map_some, History.addFlow, huse, lastN_snoc _ hpos hlen]

/-- What holds of record `j` of a run whose history at the start is `past`. -/
def RollingAt (S : Sim) (k w : Nat) (n : VSNode) (past : List ℚ) (rs : List Record) (j : Nat) (r : Record) (base : ℚ) : Prop :=
  r.pre.vsVolume k = .ok (base + r.inp.t.days * (past ++ usesOf S n rs).getD (past.length - w + j) 0) ∧
  ∀ lo hi, VolumesAre r.inp.metric (S.vsMin k) (S.vsMax k) lo hi → ∃ v, r.post.vsVolume k = .ok v ∧ lo ≤ v ∧
    v + r.inp.t.days * (lastN w (past ++ usesOf S n (rs.take (j + 1)))).sum ≤ hi

theorem getD_append_left {a b : List ℚ} {i : Nat} (h : i < a.length) : (a ++ b).getD i 0 = a.getD i 0 := by
  rw [List.getD_eq_getElem?_getD, List.getD_eq_getElem?_getD, List.getElem?_append_left h]

theorem getD_append_right {a b : List ℚ} {i : Nat} (h : a.length ≤ i) : (a ++ b).getD i 0 = b.getD (i - a.length) 0 := by
  rw [List.getD_eq_getElem?_getD, List.getD_eq_getElem?_getD, List.getElem?_append_right h]

/-- Records of a run, given the history at its start. -/
theorem rolling_records (hv : S.Valid) {big negBig : ℚ} {k w : Nat} {n : VSNode} (hn : S.vsNodes[k]? = some n)
    (hw : n.rollingWindow = some w) (hnever : n.reset = .never) (inputs : List Inp) :
    ∀ (s : SimState) (past : List ℚ) (base : ℚ) (v : VSState), Inv S big negBig s → StepsOk S inputs →
    (∀ inp ∈ inputs, n.isActive inp.t = true) →
    (∀ inp ∈ inputs.tail, inp.t.index ≠ 0) →
    (∀ inp, inputs.head? = some inp → inp.t.index = 0 ∨ VsIn S inp s.network) → w ≤ past.length → s.network.vs[k]? = some v →
    (∀ inp, inputs.head? = some inp → ∀ lo hi, VolumesAre inp.metric (S.vsMin k) (S.vsMax k) lo hi →
      (if n.doReset inp.t v.lastReset then n.applyReset inp.t hi v else v).storage.volume = base ∧
      (if n.doReset inp.t v.lastReset then n.applyReset inp.t hi v else v).history = some ⟨lastN w past, w⟩) →
    ∀ (j : Nat) (r : Record), (S.run inputs s).1[j]? = some r → ∃ b, RollingAt S k w n past (S.run inputs s).1 j r b ∧
      (j = 0 → b = base) ∧
      ∀ i r', j = i + 1 → (S.run inputs s).1[i]? = some r' → r'.post.vsVolume k = .ok b := by
  induction inputs with
  | nil => intro s past base v _ _ _ _ _ _ _ _ j r hr; simp [Sim.run] at hr
  | cons inp rest ih =>
    intro s past base v hi hso hact hne hhead hlen h1 hu j r hr
    have hmem : inp ∈ inp :: rest := List.mem_cons_self ..
    have hpos := (hv.rolling n (List.mem_of_getElem? hn) w hw).1
    obtain ⟨_, hok⟩ := steps_main hv hi hso (hhead inp rfl)
    obtain ⟨_, hok'⟩ := step_main hv hi inp (hso.days inp hmem) (hso.sound inp hmem) (hso.start inp hmem) (hso.rolling inp hmem) (hhead inp rfl)
    unfold Sim.run at hr ⊢
    cases hst : S.step inp s with
    | error e => simp [hst] at hr
    | ok p =>
      obtain ⟨s1, r1⟩ := p
      obtain ⟨hi', a1, a2, _, a4, a5⟩ := hok s1 r1 hst
      obtain ⟨_, _, _, _, _, a6⟩ := hok' s1 r1 hst
      obtain ⟨b1, v', b2, b3⟩ := rolling_step hv hi hst a4.allowed.balanced hn hw (hact inp hmem) hlen h1 (hu inp rfl)
      simp only [hst] at hr ⊢
      have hcat : ∀ rs, past ++ usesOf S n (r1 :: rs) = (past ++ [S.use n inp.t r1.flow]) ++ usesOf S n rs := by
        intro rs
        simp [usesOf, a1]
      cases j with
      | zero =>
        simp only [List.getElem?_cons_zero, Option.some.injEq] at hr
        subst hr
        refine ⟨base, ⟨?_, ?_⟩, fun _ => rfl, fun i r' h => by omega⟩
        · rw [b1, a1, Nat.add_zero, getD_append_left (by omega)]
        · intro lo hi2 hvol
          rw [a1] at hvol
          obtain ⟨u, d1, d2, _, d4⟩ := a6 k n lo hi2 hn hvol
          rw [b2] at d1
          cases d1
          obtain ⟨_, d5⟩ := d4 _ b3
          refine ⟨_, by rw [a2]; exact vsVolume_get b2, d2, ?_⟩
          rw [a1]
          simpa [usesOf, a1] using d5
      | succ j =>
        simp only [List.getElem?_cons_succ] at hr
        have hrest : ∀ inp' ∈ rest, inp'.t.index ≠ 0 := hne
        obtain ⟨b, ⟨e1, e2⟩, e3, e4⟩ := ih s1 (past ++ [S.use n inp.t r1.flow]) v'.storage.volume v' hi' hso.tail
          (fun i h => hact i (List.mem_cons_of_mem _ h)) (fun i h => hrest i (List.mem_of_mem_tail h)) a5
          (by simp only [List.length_append, List.length_singleton]; omega) b2 (by
            intro inp' hh lo hi2 _
            have hin : inp' ∈ rest := List.mem_of_mem_head? hh
            have hnr : n.doReset inp'.t v'.lastReset = false := by
              have : inp'.t.isFirst = false := by simp [Timestep.isFirst, hrest inp' hin]
              simp [VSNode.doReset, this, hact inp' (List.mem_cons_of_mem _ hin), hnever]
            rw [hnr]
            exact ⟨rfl, b3⟩) j r hr
        refine ⟨b, ⟨?_, ?_⟩, fun h => by omega, ?_⟩
        · rw [e1, hcat]
          have : (past ++ [S.use n inp.t r1.flow]).length - w + j = past.length - w + (j + 1) := by
            simp only [List.length_append, List.length_singleton]; omega
          rw [this]
        · intro lo hi2 hvol
          obtain ⟨u, d1, d2, d3⟩ := e2 lo hi2 hvol
          refine ⟨u, d1, d2, ?_⟩
          rw [List.take_succ_cons, hcat]
          exact d3
        · intro i r' hij hr'
          cases i with
          | zero =>
            simp only [List.getElem?_cons_zero, Option.some.injEq] at hr'
            subst hr'
            rw [a2, vsVolume_get b2, e3 (by omega)]
          | succ i =>
            simp only [List.getElem?_cons_succ] at hr'
            exact e4 i r' (by omega) hr'

theorem rolling_all (hv : S.Valid) (first : Inp) (rest : List Inp) (hi : S.InputsOk (first :: rest)) (big negBig : ℚ) (s : SimState)
    (hs : S.initial big negBig = .ok s) {k w : Nat} {n : VSNode} (hn : S.vsNodes[k]? = some n) (hw : n.rollingWindow = some w)
    (hnever : n.reset = .never) (hact : ∀ inp ∈ first :: rest, n.isActive inp.t = true) {lo₀ hi₀ : ℚ}
    (hvol : VolumesAre first.metric (S.vsMin k) (S.vsMax k) lo₀ hi₀) :
    ∀ (j : Nat) (r : Record), (S.run (first :: rest) s).1[j]? = some r →
      ∃ b, RollingAt S k w n (List.replicate w ((hi₀ - n.initialVolume.get hi₀) / w)) (S.run (first :: rest) s).1 j r b ∧
      (j = 0 → b = resetTo n hi₀) ∧
      ∀ i r', j = i + 1 → (S.run (first :: rest) s).1[i]? = some r' → r'.post.vsVolume k = .ok b := by
  have hinv := inv_initial hv hs
  obtain ⟨v, hv0, _⟩ := pre_vs_get hinv first ⟨fun _ => (0, 0), fun _ => (0, 0)⟩ hn
  have hidx := hi.index
  simp only [List.map_cons, List.length_cons, List.range_succ_eq_map, List.cons.injEq] at hidx
  have hne : ∀ inp ∈ rest, inp.t.index ≠ 0 := by
    intro inp hinp
    have : inp.t.index ∈ List.map Nat.succ (List.range rest.length) := by rw [← hidx.2]; exact List.mem_map_of_mem hinp
    obtain ⟨j, _, hj⟩ := List.mem_map.1 this
    omega
  refine rolling_records hv hn hw hnever (first :: rest) s _ _ v hinv (stepsOk hi) hact hne
    (fun inp h => Or.inl (headOk hi.index inp h)) (by simp) hv0 ?_
  intro inp hh lo hi2 hvol2
  simp only [List.head?_cons, Option.some.injEq] at hh
  subst hh
  obtain ⟨rfl, rfl⟩ := VolumesAre.unique hvol2 hvol
  have hr : n.doReset first.t v.lastReset = true := by simp [VSNode.doReset, Timestep.isFirst, hidx.1]
  rw [hr, if_pos rfl]
  have hsize := hinv.hist k n v hn hv0
  rw [hw] at hsize
  obtain ⟨h0, hh0, hsz⟩ := Option.map_eq_some_iff.1 hsize
  constructor
  · unfold VSNode.applyReset resetTo
    rw [hw]
    cases n.resetVolume <;> rfl
  · unfold VSNode.applyReset
    simp [hw, VSState.resetVolume, VSState.resetHistory, hh0, History.reset, hsz, lastN]

/-- **C60 (rolling licences, what is given back).** A licence with a window of `w` steps that is never reset and always active is
given back in every step exactly what was used `w` steps before, at the length of the present step; in the first `w` steps it is
given back equal shares of what was missing at the start. -/
theorem C60_rolling (hv : S.Valid) (first : Inp) (rest : List Inp) (hi : S.InputsOk (first :: rest)) (big negBig : ℚ) (s : SimState)
    (hs : S.initial big negBig = .ok s) {k w : Nat} {n : VSNode} (hn : S.vsNodes[k]? = some n) (hw : n.rollingWindow = some w)
    (hnever : n.reset = .never) (hact : ∀ inp ∈ first :: rest, n.isActive inp.t = true) {lo₀ hi₀ : ℚ}
    (hvol : VolumesAre first.metric (S.vsMin k) (S.vsMax k) lo₀ hi₀) :
    ∀ (j : Nat) (r : Record), (S.run (first :: rest) s).1[j]? = some r → ∃ before back,
      r.pre.vsVolume k = .ok (before + r.inp.t.days * back) ∧
      (j = 0 → before = resetTo n hi₀) ∧
      (∀ i r', j = i + 1 → (S.run (first :: rest) s).1[i]? = some r' → r'.post.vsVolume k = .ok before) ∧
      (j < w → back = (hi₀ - n.initialVolume.get hi₀) / w) ∧
      (∀ i r', j = i + w → (S.run (first :: rest) s).1[i]? = some r' → back = S.use n r'.inp.t r'.flow) := by
  intro j r hr
  obtain ⟨b, ⟨h1, _⟩, h2, h3⟩ := rolling_all hv first rest hi big negBig s hs hn hw hnever hact hvol j r hr
  refine ⟨b, _, h1, h2, h3, ?_, ?_⟩
  · intro hj
    rw [getD_append_left (by simp; omega), List.getD_eq_getElem?_getD]
    simp [hj]
  · intro i r' hij hr'
    rw [getD_append_right (by simp; omega), List.getD_eq_getElem?_getD]
    have : (List.replicate w ((hi₀ - n.initialVolume.get hi₀) / (w : ℚ))).length - w + j -
        (List.replicate w ((hi₀ - n.initialVolume.get hi₀) / (w : ℚ))).length = i := by simp; omega
    rw [this]
    simp [usesOf, hr']

/-- **C60 (rolling licences, what may be used).** The use of any `w` consecutive steps, at the length of the last of them, is at
most the size of the licence. -/
theorem C60_rolling_limit (hv : S.Valid) (first : Inp) (rest : List Inp) (hi : S.InputsOk (first :: rest)) (big negBig : ℚ) (s : SimState)
    (hs : S.initial big negBig = .ok s) {k w : Nat} {n : VSNode} (hn : S.vsNodes[k]? = some n) (hw : n.rollingWindow = some w)
    (hnever : n.reset = .never) (hact : ∀ inp ∈ first :: rest, n.isActive inp.t = true) {lo₀ hi₀ : ℚ}
    (hvol : VolumesAre first.metric (S.vsMin k) (S.vsMax k) lo₀ hi₀) :
    ∀ (j : Nat) (r : Record), (S.run (first :: rest) s).1[j]? = some r → ∀ lo hi,
      VolumesAre r.inp.metric (S.vsMin k) (S.vsMax k) lo hi →
      r.inp.t.days * ((((S.run (first :: rest) s).1.take (j + 1)).drop (j + 1 - w)).map fun q => S.use n q.inp.t q.flow).sum ≤ hi - lo := by
  intro j r hr lo hi2 hvol2
  obtain ⟨b, ⟨_, h1⟩, _⟩ := rolling_all hv first rest hi big negBig s hs hn hw hnever hact hvol j r hr
  obtain ⟨v, _, h2, h3⟩ := h1 lo hi2 hvol2
  have hjl : j < (S.run (first :: rest) s).1.length := (List.getElem?_eq_some_iff.1 hr).1
  have hrun := (C60_run hv (first :: rest) hi big negBig s hs).1
  obtain ⟨hinp, _⟩ := runOk_get _ _ _ hrun j r hr
  have hdays := hi.days _ (List.mem_of_getElem? hinp)
  have hpos : (0 : ℚ) ≤ w := by exact_mod_cast Nat.zero_le w
  have hf0 : 0 ≤ (hi₀ - n.initialVolume.get hi₀) / (w : ℚ) :=
    div_nonneg (by linarith [(hi.start first (List.mem_cons_self ..) k n _ _ hn hvol).2]) hpos
  have key : ((((S.run (first :: rest) s).1.take (j + 1)).drop (j + 1 - w)).map fun q => S.use n q.inp.t q.flow).sum ≤
      (lastN w (List.replicate w ((hi₀ - n.initialVolume.get hi₀) / (w : ℚ)) ++ usesOf S n ((S.run (first :: rest) s).1.take (j + 1)))).sum := by
    have hl : (usesOf S n ((S.run (first :: rest) s).1.take (j + 1))).length = j + 1 := by simp [usesOf]; omega
    unfold lastN
    rw [List.length_append, List.length_replicate, hl, List.drop_append, List.length_replicate, List.sum_append]
    have e : w + (j + 1) - w - w = j + 1 - w := by omega
    rw [e]
    have h0 : 0 ≤ ((List.replicate w ((hi₀ - n.initialVolume.get hi₀) / (w : ℚ))).drop (w + (j + 1) - w)).sum := by
      apply List.sum_nonneg
      intro x hx
      rw [List.eq_of_mem_replicate (List.mem_of_mem_drop hx)]
      exact hf0
    have e2 : (usesOf S n ((S.run (first :: rest) s).1.take (j + 1))).drop (j + 1 - w) =
        (((S.run (first :: rest) s).1.take (j + 1)).drop (j + 1 - w)).map fun q => S.use n q.inp.t q.flow := by
      unfold usesOf
      rw [List.map_drop]
    rw [e2]
    linarith
  have := mul_le_mul_of_nonneg_left key (le_of_lt hdays)
  linarith

end Verif.Simulation
