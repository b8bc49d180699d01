import Verif.Lemmas.WholeRun

/-! # Histories of parameters and records of simulations -/

namespace Verif.Coupled

open Verif.State Verif.Solver Verif.Time Verif.Simulation
open Verif.Params (Ref Stage Name Calcs Use Means Given Gives History Obeys Ready)

variable {V St : Type} {S : Sim} {M : Whole V St}

/-! ## What is seen in a run -/

theorem initial_network {big negBig : ℚ} {s : SimState} (h : S.initial big negBig = .ok s) : s.network = S.initialNetwork := by
  unfold Sim.initial at h
  split at h
  · cases h
  · cases h; rfl

/-- The steps of a run. -/
structure Steps (S : Sim) (n : Nat) (input : Nat → Inp) (record : Nat → Record) (st : Nat → SimState) : Prop where
  start : (st 0).network = S.initialNetwork
  step : ∀ t < n, S.step (input t) (st t) = .ok (st (t + 1), record t)

variable {n : Nat} {input : Nat → Inp} {record : Nat → Record} {st : Nat → SimState}

theorem Steps.shape (h : Steps S n input record st) (hv : S.model.Valid) : ∀ t ≤ n,
    Shape S (st t).network ∧ HasFlows S (flowBefore record t) (st t).network := by
  intro t
  induction t with
  | zero => intro _; rw [h.start]; exact ⟨shape_initial hv, flows_initial⟩
  | succ t ih =>
    intro ht
    obtain ⟨h1, -⟩ := ih (by omega)
    obtain ⟨b, x, -, -, -, a4, a5⟩ := step_iff.1 (h.step t (by omega))
    have hp := shape_pre h1 (input t) b
    refine ⟨shape_post hp a4, ?_⟩
    have := flows_post hv hp a4
    simpa only [flowBefore, a5] using this

theorem maxFlows_iff {σ : Nat → Option ℚ} {i : Nat} {v : ℚ} : maxFlows S σ i = some v ↔
    ∃ n, S.net.nodes[i]? = some n ∧ n.kind ≠ .storage ∧ ValueIs σ (S.data i).maxFlow f64MAX v := by
  have key : ∀ (m : Option Metric) (d v : ℚ), valueOr d σ m = some v ↔ ValueIs σ m d v := by
    intro m d v
    cases m with
    | none => simp [valueOr, ValueIs, eq_comm]
    | some m => simp [valueOr, ValueIs]
  unfold maxFlows
  rw [kinds_get]
  cases S.net.nodes[i]? with
  | none => simp
  | some n => cases hk : n.kind <;> simp [hk, key]

theorem Steps.before_iff (h : Steps S n input record st) (hv : S.model.Valid) {t : Nat} (ht : t < n) (so : Built)
    (see : Comp → Option ℚ) : SeenBefore S input record t see ↔
      see = (World.mk S ⟨(record t).pre, so⟩ (record t).bounds fun _ => none).get := by
  obtain ⟨h1, h2⟩ := h.shape hv t (by omega)
  obtain ⟨b, x, hb, -, -, -, a5⟩ := step_iff.1 (h.step t ht)
  have hb' : S.bounds (input t).metric = some (record t).bounds := by rw [a5]; exact hb
  have hp : Shape S (record t).pre := by rw [a5]; exact shape_pre h1 _ _
  have hf : HasFlows S (flowBefore record t) (record t).pre := by rw [a5]; exact flows_pre h2 _ _
  constructor
  · rintro ⟨g, g1, g2, g3⟩
    funext c
    apply Option.ext
    intro v
    rw [g3]
    exact (get_shows hv hp hf hb' g1 (fun i v => by simp [g2]) c v).symm
  · rintro rfl
    obtain ⟨g, g1, g2⟩ := moment_exists (f := flowBefore record t) hv hp hb' (fun _ => none)
    refine ⟨g, g1, fun i => by rw [g2], fun c v => ?_⟩
    exact get_shows hv hp hf hb' g1 (fun i v => by simp [g2]) c v

theorem Steps.after_iff (h : Steps S n input record st) (hv : S.model.Valid) {t : Nat} (ht : t < n) (so : Built)
    (see : Comp → Option ℚ) : SeenAfter S input record t see ↔
      see = (World.mk S ⟨(record t).post, so⟩ (record t).bounds (maxFlows S (input t).metric)).get := by
  obtain ⟨h1, h2⟩ := h.shape hv (t + 1) (by omega)
  obtain ⟨b, x, hb, -, -, -, a5⟩ := step_iff.1 (h.step t ht)
  have hb' : S.bounds (input t).metric = some (record t).bounds := by rw [a5]; exact hb
  have he : (record t).post = (st (t + 1)).network := by rw [a5]
  rw [← he] at h1 h2
  constructor
  · rintro ⟨g, g1, g2, g3⟩
    funext c
    apply Option.ext
    intro v
    rw [g3]
    exact (get_shows hv h1 h2 hb' g1 (fun i v => by rw [maxFlows_iff, g2]) c v).symm
  · rintro rfl
    obtain ⟨g, g1, g2⟩ := moment_exists (f := (record t).flow) hv h1 hb' (maxFlows S (input t).metric)
    refine ⟨g, g1, fun i v => by rw [g2, maxFlows_iff], fun c v => ?_⟩
    exact get_shows hv h1 h2 hb' g1 (fun i v => by rw [g2]) c v

/-! ## Equations of parameters -/

/-- The same history, of which only what is seen of components is kept. -/
structure Same (n : Nat) (H : History V St (Option World)) (h : History V St (Comp → Option ℚ)) : Prop where
  value : H.value = h.value
  start : H.start = h.start
  held : H.held = h.held
  ready : ∀ t < n, view (H.ready t) = h.ready t
  world : ∀ t < n, view (H.world (t + 1)) = h.world (t + 1)

variable {H : History V St (Option World)} {h : History V St (Comp → Option ℚ)}

theorem Same.const (hs : Same n H h) (b : Params.Builder) (form : Params.Form) :
    Params.ConstHolds M.params M.calcs H b form ↔ Params.ConstHolds M.params M.definitions h b form := by
  have hg := given_congr (bs := M.params) hs.value M.zero .const 0
  unfold Params.ConstHolds
  rw [hs.start]
  split
  · refine exists_congr fun vs => and_congr (hg _ vs) ?_
    rw [hs.value]; exact Iff.rfl
  · exact Iff.rfl

theorem Same.before (hs : Same n H h) {t : Nat} (ht : t < n) (b : Params.Builder) (form : Params.Form) :
    Params.BeforeHolds M.params M.calcs H t b form ↔ Params.BeforeHolds M.params M.definitions h t b form := by
  have hg := fun st => given_congr (bs := M.params) hs.value M.zero st t
  have hr := hs.ready t ht
  unfold Params.BeforeHolds
  rw [hs.start, hs.held]
  split
  · refine exists_congr fun vs => and_congr (hg _ _ vs) ?_
    rw [hs.value]; exact Iff.rfl
  · refine exists_congr fun vs => and_congr (hg _ _ vs) ?_
    rw [hs.value, ← hr]; exact Iff.rfl
  · exact Iff.rfl

theorem Same.after (hs : Same n H h) {t : Nat} (ht : t < n) (b : Params.Builder) (form : Params.Form) :
    Params.AfterHolds M.params M.calcs H t b form ↔ Params.AfterHolds M.params M.definitions h t b form := by
  have hg := fun st => given_congr (bs := M.params) hs.value M.zero st t
  have hr := hs.world t ht
  unfold Params.AfterHolds
  rw [hs.start, hs.held]
  split
  · refine exists_congr fun vs => and_congr (hg _ _ vs) ?_
    rw [hs.value, ← hr]; exact Iff.rfl
  · refine exists_congr fun vs => and_congr (hg _ _ vs) ?_
    rw [← hr]; exact Iff.rfl
  · exact Iff.rfl

/-! ## Steps -/

/-- The state `s` of a simulation is that of the world at the start of a step. -/
def Stands (M : Whole V St) (cs : List V) (s₀ : SimState) (w : Option World) (s : SimState) : Prop :=
  (M.sim cs).initial M.big M.negBig = .ok s₀ ∧
    match w with
    | none => s = s₀
    | some w => w.sim = M.sim cs ∧ w.state = s

theorem nodes_stands {cs ss : List V} {s₀ s : SimState} {w : Option World} (hl : cs.length = M.constRefs.length)
    (h : Stands M cs s₀ w s) (t : Nat) : M.nodes t w (cs ++ ss) = M.begin t ss (M.sim cs) s := by
  obtain ⟨h0, h⟩ := h
  unfold Whole.nodes
  rw [← hl, List.drop_left, List.take_left]
  cases w with
  | none =>
    simp only at h ⊢
    rw [h0, h]
  | some w =>
    obtain ⟨h1, h2⟩ := h
    simp only
    rw [h1, h2]

theorem step_link (hv : M.Valid) (hn : (M.params.map Params.Builder.name).Nodup) {cs : List V}
    (hc : Given M.params H M.zero .before 0 (uses M.constRefs) cs) {t : Nat} {s₀ s : SimState}
    (hs : Stands M cs s₀ (H.world t) s) :
    ((∃ vs, Given M.params H M.calcs.zero .before t (M.nodeRefs.map fun r => ⟨r, .before⟩) vs ∧
        M.calcs.nodes t (H.world t) vs = some (H.ready t)) ∧
      (∃ vs, Given M.params H M.calcs.zero .before t (M.solveRefs.map fun r => ⟨r, .before⟩) vs ∧
        M.calcs.solve t (H.ready t) vs = some (H.world (t + 1)))) ↔
    ∃ vs r s', Given M.params H M.zero .before t (uses (M.simpleRefs ++ M.otherRefs)) vs ∧
      (M.sim cs).step (M.inp t vs (view (H.ready t))) s = .ok (s', r) ∧
      H.ready t = some ⟨M.sim cs, ⟨r.pre, s.solver⟩, r.bounds, fun _ => none⟩ ∧
      H.world (t + 1) = some ⟨M.sim cs, s', r.bounds, maxFlows (M.sim cs) (M.inp t vs (view (H.ready t))).metric⟩ := by
  have hrefs := hv.refs
  unfold Whole.solveRefs at hrefs
  have hlc : cs.length = M.constRefs.length := given_length (fun r hr => hrefs r (by simp [hr])) hc
  have hct : Given M.params H M.zero .before t (uses M.constRefs) cs := (given_const hv.consts).2 hc
  constructor
  · rintro ⟨⟨vs, g1, e1⟩, ⟨vs', g2, e2⟩⟩
    have g1 : Given M.params H M.zero .before t (uses (M.constRefs ++ M.simpleRefs)) vs := g1
    have g2 : Given M.params H M.zero .before t (uses (M.constRefs ++ (M.simpleRefs ++ M.otherRefs))) vs' := g2
    rw [given_append] at g1 g2
    obtain ⟨cs1, ss, rfl, c1, c2⟩ := g1
    obtain ⟨cs2, so, rfl, d1, d2⟩ := g2
    obtain rfl : cs = cs1 := given_unique hn hct c1
    obtain rfl : cs = cs2 := given_unique hn hct d1
    have d2' := d2
    rw [given_append] at d2'
    obtain ⟨ss', os, rfl, d3, d4⟩ := d2'
    obtain rfl := given_unique hn c2 d3
    have hls := given_length (fun r hr => hrefs r (by simp [hr])) c2
    simp only [Whole.calcs, Option.map_eq_some_iff] at e1
    obtain ⟨w, e1, e3⟩ := e1
    rw [nodes_stands hlc hs] at e1
    simp only [Whole.calcs] at e2
    rw [← e3] at e2
    simp only [Option.map_eq_some_iff] at e2
    obtain ⟨w', e2, e4⟩ := e2
    rw [← hlc, List.drop_left] at e2
    obtain ⟨r, s', a1, a2, a3⟩ := (begin_solve_iff hv cs hls).1 ⟨e1, e2⟩
    refine ⟨ss ++ os, r, s', d2, ?_, ?_, ?_⟩
    · rw [← e3]; exact a1
    · rw [← e3, a2]
    · rw [← e3, ← e4, a3]; rfl
  · rintro ⟨vs, r, s', g, a1, a2, a3⟩
    have g' := g
    rw [given_append] at g'
    obtain ⟨ss, os, rfl, d3, d4⟩ := g'
    have hls := given_length (fun r hr => hrefs r (by simp [hr])) d3
    have key := (begin_solve_iff (w := ⟨M.sim cs, ⟨r.pre, s.solver⟩, r.bounds, fun _ => none⟩)
      (w' := ⟨M.sim cs, s', r.bounds, maxFlows (M.sim cs) (M.inp t (ss ++ os) (view (H.ready t))).metric⟩) (t := t) (s := s) hv cs
      (os := os) hls).2
      ⟨r, s', by rw [a2] at a1; exact a1, rfl, by rw [a2]; rfl⟩
    refine ⟨⟨cs ++ ss, given_append.2 ⟨_, _, rfl, hct, d3⟩, ?_⟩, ⟨cs ++ (ss ++ os), given_append.2 ⟨_, _, rfl, hct, g⟩, ?_⟩⟩
    · simp only [Whole.calcs]
      rw [nodes_stands hlc hs, key.1, a2]
      rfl
    · simp only [Whole.calcs]
      rw [← hlc, List.drop_left, a3]
      generalize maxFlows (M.sim cs) (M.inp t (ss ++ os) (view (H.ready t))).metric = mf at key ⊢
      rw [a2]
      simp only
      rw [key.2]
      rfl

/-- A history that obeys all definitions is a run. -/
theorem runs_of_obeys (hv : M.Valid) (hn : (M.params.map Params.Builder.name).Nodup)
    (ho : Obeys M.params M.nodeRefs M.solveRefs M.calcs none (n + 1) H) :
    ∃ h cs input record, Same (n + 1) H h ∧ M.Runs (n + 1) h cs input record := by
  -- the constants, from the first step
  obtain ⟨vs, g1, e1⟩ := ho.nodes 0 (by omega)
  have g1 : Given M.params H M.zero .before 0 (uses (M.constRefs ++ M.simpleRefs)) vs := g1
  rw [given_append] at g1
  obtain ⟨cs, ss, rfl, hc, -⟩ := g1
  have hrefs := hv.refs
  unfold Whole.solveRefs at hrefs
  have hlc : cs.length = M.constRefs.length := given_length (fun r hr => hrefs r (by simp [hr])) hc
  obtain ⟨s₀, h0⟩ : ∃ s₀, (M.sim cs).initial M.big M.negBig = .ok s₀ := by
    simp only [Whole.calcs, Option.map_eq_some_iff] at e1
    obtain ⟨w, e1, -⟩ := e1
    rw [ho.world] at e1
    unfold Whole.nodes at e1
    simp only at e1
    rw [← hlc, List.take_left] at e1
    split at e1
    · cases e1
    · rename_i s hs; exact ⟨s, hs⟩
  -- the states of the simulation
  let st : Nat → SimState := fun t => match H.world t with
    | none => s₀
    | some w => w.state
  have stands : ∀ t ≤ n + 1, Stands M cs s₀ (H.world t) (st t) := by
    intro t
    induction t with
    | zero =>
      intro _
      refine ⟨h0, ?_⟩
      simp only [st, ho.world]
    | succ t ih =>
      intro ht
      obtain ⟨vs, r, s', -, -, -, a3⟩ := (step_link hv hn hc (ih (by omega))).1 ⟨ho.nodes t (by omega), ho.solve t (by omega)⟩
      refine ⟨h0, ?_⟩
      simp only [st, a3, and_self]
  have data : ∀ t, ∃ vs r, t < n + 1 → Given M.params H M.zero .before t (uses (M.simpleRefs ++ M.otherRefs)) vs ∧
      (M.sim cs).step (M.inp t vs (view (H.ready t))) (st t) = .ok (st (t + 1), r) ∧
      H.ready t = some ⟨M.sim cs, ⟨r.pre, (st t).solver⟩, r.bounds, fun _ => none⟩ ∧
      H.world (t + 1) = some ⟨M.sim cs, st (t + 1), r.bounds, maxFlows (M.sim cs) (M.inp t vs (view (H.ready t))).metric⟩ := by
    intro t
    by_cases ht : t < n + 1
    · obtain ⟨vs, r, s', a0, a1, a2, a3⟩ := (step_link hv hn hc (stands t (by omega))).1 ⟨ho.nodes t ht, ho.solve t ht⟩
      have hst : st (t + 1) = s' := by simp only [st, a3]
      exact ⟨vs, r, fun _ => ⟨a0, by rw [hst]; exact a1, a2, by rw [hst]; exact a3⟩⟩
    · exact ⟨[], ⟨⟨M.time t, fun _ => none, M.solver t⟩, ⟨fun _ => (0, 0), fun _ => (0, 0)⟩, s₀.network, fun _ => 0, s₀.network⟩,
        fun h => absurd h ht⟩
  choose vs record data using data
  let input : Nat → Inp := fun t => M.inp t (vs t) (view (H.ready t))
  have hst0 : st 0 = s₀ := by simp only [st, ho.world]
  have steps : Steps (M.sim cs) (n + 1) input record st :=
    ⟨by rw [hst0]; exact initial_network h0, fun t ht => (data t ht).2.1⟩
  have post : ∀ t < n + 1, (record t).post = (st (t + 1)).network := by
    intro t ht
    obtain ⟨b, x, -, -, -, -, a5⟩ := step_iff.1 (steps.step t ht)
    rw [a5]
  have same : Same (n + 1) H ⟨H.value, H.start, H.held, fun t => view (H.world t), fun t => view (H.ready t)⟩ :=
    ⟨rfl, rfl, rfl, fun _ _ => rfl, fun _ _ => rfl⟩
  refine ⟨_, cs, input, record, same, ?_, ?_, ?_, ?_, ?_, ?_, ?_, ?_⟩
  · exact fun b hb form hf => same.const b form |>.1 (ho.const b hb form hf)
  · exact fun t ht b hb form hf => same.before ht b form |>.1 (ho.before t ht b hb form hf)
  · exact fun t ht b hb form hf => same.after ht b form |>.1 (ho.after t ht b hb form hf)
  · exact (given_congr same.value _ _ _ _ _).1 hc
  · intro t ht
    exact ⟨vs t, (given_congr same.value _ _ _ _ _).1 (data t ht).1, inputIs_iff.2 rfl⟩
  · exact ⟨s₀, st (n + 1), h0, by rw [← hst0]; exact run_of_steps _ _ _ _ steps.step⟩
  · intro t ht
    rw [steps.before_iff (hv.sims cs) ht (st t).solver]
    simp only [(data t ht).2.2.1]
    rfl
  · intro t ht
    rw [steps.after_iff (hv.sims cs) ht (st (t + 1)).solver]
    have := (data t ht).2.2.2
    simp only
    rw [this, post t ht]
    rfl

/-- A run is a history that obeys all definitions. -/
theorem obeys_of_runs (hv : M.Valid) (hn : (M.params.map Params.Builder.name).Nodup) {cs : List V}
    (hr : M.Runs n h cs input record) :
    ∃ H, Same n H h ∧ Obeys M.params M.nodeRefs M.solveRefs M.calcs none n H := by
  obtain ⟨s₀, s', h0, hrun⟩ := hr.run
  obtain ⟨st, e0, -, hsteps⟩ := steps_of_run n input record s₀ s' hrun
  have steps : Steps (M.sim cs) n input record st := ⟨by rw [e0]; exact initial_network h0, hsteps⟩
  have post : ∀ t < n, (record t).post = (st (t + 1)).network := by
    intro t ht
    obtain ⟨b, x, -, -, -, -, a5⟩ := step_iff.1 (steps.step t ht)
    rw [a5]
  let H : History V St (Option World) := ⟨h.value, h.start, h.held,
    fun t => match t with
      | 0 => none
      | t + 1 => some ⟨M.sim cs, st (t + 1), (record t).bounds, maxFlows (M.sim cs) (input t).metric⟩,
    fun t => some ⟨M.sim cs, ⟨(record t).pre, (st t).solver⟩, (record t).bounds, fun _ => none⟩⟩
  have same : Same n H h := by
    refine ⟨rfl, rfl, rfl, ?_, ?_⟩
    · intro t ht
      exact ((steps.before_iff (hv.sims cs) ht (st t).solver _).1 (hr.ready t ht)).symm
    · intro t ht
      have := (steps.after_iff (hv.sims cs) ht (st (t + 1)).solver _).1 (hr.world t ht)
      rw [post t ht] at this
      exact this.symm
  have hc : Given M.params H M.zero .before 0 (uses M.constRefs) cs := (given_congr same.value _ _ _ _ _).2 hr.consts
  have link : ∀ t < n, (∃ vs, Given M.params H M.calcs.zero .before t (M.nodeRefs.map fun r => ⟨r, .before⟩) vs ∧
        M.calcs.nodes t (H.world t) vs = some (H.ready t)) ∧
      (∃ vs, Given M.params H M.calcs.zero .before t (M.solveRefs.map fun r => ⟨r, .before⟩) vs ∧
        M.calcs.solve t (H.ready t) vs = some (H.world (t + 1))) := by
    intro t ht
    have hs : Stands M cs s₀ (H.world t) (st t) := by
      refine ⟨h0, ?_⟩
      cases t with
      | zero => exact e0
      | succ t => exact ⟨rfl, rfl⟩
    obtain ⟨vs, g, hi⟩ := hr.inputs t ht
    rw [inputIs_iff, ← same.ready t ht] at hi
    exact (step_link hv hn hc hs).2 ⟨vs, record t, st (t + 1), (given_congr same.value _ _ _ _ _).2 g,
      by rw [← hi]; exact steps.step t ht, rfl, by rw [← hi]⟩
  refine ⟨H, same, rfl, ?_, ?_, ?_, fun t ht => (link t ht).1, fun t ht => (link t ht).2⟩
  · exact fun b hb form hf => same.const b form |>.2 (hr.const b hb form hf)
  · exact fun t ht b hb form hf => same.before ht b form |>.2 (hr.before t ht b hb form hf)
  · exact fun t ht b hb form hf => same.after ht b form |>.2 (hr.after t ht b hb form hf)

end Verif.Coupled
