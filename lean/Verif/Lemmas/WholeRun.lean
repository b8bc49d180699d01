import Verif.Lemmas.WholeState
import Verif.Props.ParamRun

/-! # Steps of a network with its parameters are steps of a simulation -/

namespace Verif.Coupled

open Verif.State Verif.Solver Verif.Time Verif.Simulation
open Verif.Params (Ref Stage Name Calcs Use Means Given Gives History)

variable {V St : Type} {S : Sim}

/-! ## Runs as sequences of steps -/

theorem run_of_steps (n : Nat) : ∀ (input : Nat → Inp) (st : Nat → SimState) (record : Nat → Record),
    (∀ t < n, S.step (input t) (st t) = .ok (st (t + 1), record t)) →
    S.run ((List.range n).map input) (st 0) = ((List.range n).map record, .ok (st n)) := by
  induction n with
  | zero => intro _ _ _ _; rfl
  | succ n ih =>
    intro input st record h
    have h0 := h 0 (by omega)
    have ih := ih (fun t => input (t + 1)) (fun t => st (t + 1)) (fun t => record (t + 1)) fun t ht => h (t + 1) (by omega)
    simp only [List.range_succ_eq_map, List.map_cons, List.map_map, Sim.run, h0]
    simp only [Nat.zero_add] at ih ⊢
    have e1 : (input ∘ Nat.succ) = fun t => input (t + 1) := rfl
    have e2 : (record ∘ Nat.succ) = fun t => record (t + 1) := rfl
    rw [e1, e2, ih]

theorem steps_of_run (n : Nat) : ∀ (input : Nat → Inp) (record : Nat → Record) (s s' : SimState),
    S.run ((List.range n).map input) s = ((List.range n).map record, .ok s') →
    ∃ st : Nat → SimState, st 0 = s ∧ st n = s' ∧ ∀ t < n, S.step (input t) (st t) = .ok (st (t + 1), record t) := by
  induction n with
  | zero =>
    intro _ _ s s' h
    cases h
    exact ⟨fun _ => s, rfl, rfl, fun t ht => absurd ht (by omega)⟩
  | succ n ih =>
    intro input record s s' h
    simp only [List.range_succ_eq_map, List.map_cons, List.map_map, Sim.run] at h
    cases hs : S.step (input 0) s with
    | error e => rw [hs] at h; simp at h
    | ok p =>
      obtain ⟨s1, r⟩ := p
      rw [hs] at h
      simp only [Prod.mk.injEq, List.cons.injEq] at h
      obtain ⟨⟨h1, h2⟩, h3⟩ := h
      have e1 : (input ∘ Nat.succ) = fun t => input (t + 1) := rfl
      have e2 : (record ∘ Nat.succ) = fun t => record (t + 1) := rfl
      rw [e1] at h2 h3
      rw [e2] at h2
      obtain ⟨st, a1, a2, a3⟩ := ih _ (fun t => record (t + 1)) s1 s' (Prod.ext h2 h3)
      refine ⟨fun t => match t with | 0 => s | t + 1 => st t, rfl, a2, ?_⟩
      intro t ht
      cases t with
      | zero => simp only; rw [hs, a1, h1]
      | succ t => exact a3 t (by omega)

/-! ## One step -/

/-- What a completed step consists of. -/
theorem step_iff {inp : Inp} {s s' : SimState} {r : Record} : S.step inp s = .ok (s', r) ↔
    ∃ b x, S.bounds inp.metric = some b ∧
      Solver.step S.model s.solver (S.stepState inp b (S.pre inp b s.network)) = .ok s'.solver ∧
      inp.solve s'.solver.lp = some x ∧
      applySolution S.stateNet b inp.t (colFlow s'.solver x) (S.pre inp b s.network) = .ok s'.network ∧
      r = ⟨inp, b, S.pre inp b s.network, colFlow s'.solver x, s'.network⟩ := by
  unfold Sim.step
  constructor
  · intro h
    split at h
    · cases h
    · rename_i b hb
      split at h
      · cases h
      · rename_i so hso
        split at h
        · cases h
        · rename_i x hx
          split at h
          · cases h
          · rename_i n hn
            cases h
            exact ⟨b, x, hb, hso, hx, hn, rfl⟩
  · rintro ⟨b, x, h1, h2, h3, h4, rfl⟩
    rw [h1]; simp only
    rw [h2]; simp only
    rw [h3]; simp only
    rw [h4]

theorem pre_time {inp inp' : Inp} (h : inp.t = inp'.t) (hi : S.iv inp.metric = S.iv inp'.metric) (b : State.Bounds) (s : NetworkState) :
    S.pre inp b s = S.pre inp' b s := by
  unfold Sim.pre; rw [h, hi]

theorem bounds_congr {σ σ' : Nat → Option ℚ}
    (hn : ∀ i id, (S.data i).minVolume = some (.dyn id) ∨ (S.data i).maxVolume = some (.dyn id) → σ id = σ' id)
    (hv : ∀ k id, S.vsMin k = some (.dyn id) ∨ S.vsMax k = some (.dyn id) → σ id = σ' id) : S.bounds σ = S.bounds σ' := by
  have key : ∀ (m : Option Metric) (d : ℚ), (∀ id, m = some (.dyn id) → σ id = σ' id) → valueOr d σ m = valueOr d σ' m := by
    intro m d h
    cases m with
    | none => rfl
    | some m =>
      cases m with
      | const v => rfl
      | dyn id => exact h id rfl
  have h1 : S.nodeVolumes σ = S.nodeVolumes σ' := by
    funext i
    unfold Sim.nodeVolumes volumeBounds
    rw [key _ _ fun id h => hn i id (Or.inl h), key _ _ fun id h => hn i id (Or.inr h)]
  have h2 : S.vsVolumes σ = S.vsVolumes σ' := by
    funext i
    unfold Sim.vsVolumes volumeBounds
    rw [key _ _ fun id h => hv i id (Or.inl h), key _ _ fun id h => hv i id (Or.inr h)]
  unfold Sim.bounds
  rw [h1, h2]

variable {M : Whole V St}

theorem simple_metric {m : Option Metric} (h : M.SimpleMetric m) {id : Nat} (he : m = some (.dyn id)) {ss os : List V}
    (hl : ss.length = M.simpleRefs.length) (see see' : Comp → Option ℚ) : M.metric ss see id = M.metric (ss ++ os) see' id := by
  obtain ⟨j, key, h1, h2⟩ := h id he
  unfold Whole.metric
  rw [h1]
  simp only
  rw [List.getElem?_append_left (by omega)]

theorem bounds_simple (hv : M.Valid) (cs : List V) {ss os : List V} (hl : ss.length = M.simpleRefs.length)
    (see see' : Comp → Option ℚ) : (M.sim cs).bounds (M.metric ss see) = (M.sim cs).bounds (M.metric (ss ++ os) see') := by
  apply bounds_congr
  · rintro i id (h | h)
    · exact simple_metric (hv.volumes cs i).1 h hl _ _
    · exact simple_metric (hv.volumes cs i).2 h hl _ _
  · rintro k id (h | h)
    · exact simple_metric (hv.licences cs k).1 h hl _ _
    · exact simple_metric (hv.licences cs k).2 h hl _ _

theorem starts_simple (hv : M.Valid) (cs : List V) {ss os : List V} (hl : ss.length = M.simpleRefs.length)
    (see see' : Comp → Option ℚ) : (M.sim cs).iv (M.metric ss see) = (M.sim cs).iv (M.metric (ss ++ os) see') := by
  refine hv.starts cs _ _ fun id j key h1 h2 => ?_
  unfold Whole.metric
  rw [h1]
  simp only
  rw [List.getElem?_append_left (by omega)]

/-- `before` of nodes and the allocation together are a step of the simulation. -/
theorem begin_solve_iff (hv : M.Valid) (cs : List V) {ss os : List V} (hl : ss.length = M.simpleRefs.length) {t : Nat} {s : SimState}
    {w w' : World} : M.begin t ss (M.sim cs) s = some w ∧ M.solve t w (ss ++ os) = some w' ↔
      ∃ r s', (M.sim cs).step (M.inp t (ss ++ os) w.get) s = .ok (s', r) ∧
        w = ⟨M.sim cs, ⟨r.pre, s.solver⟩, r.bounds, fun _ => none⟩ ∧
        w' = ⟨M.sim cs, s', r.bounds, maxFlows (M.sim cs) (M.inp t (ss ++ os) w.get).metric⟩ := by
  have hb : (M.sim cs).bounds (M.metric ss fun _ => none) = (M.sim cs).bounds (M.inp t (ss ++ os) w.get).metric :=
    bounds_simple hv cs hl _ _
  constructor
  · rintro ⟨h1, h2⟩
    unfold Whole.begin at h1
    rw [hb] at h1
    split at h1
    · cases h1
    · rename_i b hb'
      simp only [Option.some.injEq] at h1
      have hpre : (M.sim cs).pre (M.inp t ss fun _ => none) b s.network = (M.sim cs).pre (M.inp t (ss ++ os) w.get) b s.network :=
        pre_time (inp := M.inp t ss fun _ => none) (inp' := M.inp t (ss ++ os) w.get) rfl (starts_simple hv cs hl _ _) _ _
      rw [hpre] at h1
      unfold Whole.solve at h2
      generalize hinp : M.inp t (ss ++ os) w.get = inp at *
      simp only at h2
      split at h2
      · cases h2
      · rename_i so hso
        split at h2
        · cases h2
        · rename_i x hx
          split at h2
          · cases h2
          · rename_i n hn
            simp only [Option.some.injEq] at h2
            subst h2
            subst h1
            exact ⟨_, ⟨n, so⟩, step_iff.2 ⟨b, x, hb', hso, hx, hn, rfl⟩, rfl, rfl⟩
  · rintro ⟨r, s', h1, h2, h3⟩
    generalize hinp : M.inp t (ss ++ os) w.get = inp at *
    obtain ⟨b, x, a1, a2, a3, a4, rfl⟩ := step_iff.1 h1
    have hpre : (M.sim cs).pre (M.inp t ss fun _ => none) b s.network = (M.sim cs).pre inp b s.network :=
      pre_time (by rw [← hinp]; rfl) (by rw [← hinp]; exact starts_simple hv cs hl _ _) _ _
    refine ⟨?_, ?_⟩
    · unfold Whole.begin
      rw [hb, a1]
      simp only
      rw [hpre, h2]
    · unfold Whole.solve
      simp only
      rw [hinp, h3]
      subst h2
      simp only
      rw [a2]; simp only
      rw [a3]; simp only
      rw [a4]

/-! ## Values of references -/

variable {T W W' : Type} {bs : List Params.Builder}

theorem means_congr {h : History V T W} {h' : History V T W'} (he : h.value = h'.value) (zero : V) (st : Stage) (t : Nat) (u : Use)
    (v : V) : Means bs h zero st t u v ↔ Means bs h' zero st t u v := by
  have : ∀ m sh, h.meaning zero st t m sh = h'.meaning zero st t m sh := by
    intro m sh
    cases sh <;> simp only [History.meaning, he]
    congr 1
    cases t <;> simp only [History.previous, he]
  unfold Means
  simp only [this]

theorem given_congr {h : History V T W} {h' : History V T W'} (he : h.value = h'.value) (zero : V) (st : Stage) (t : Nat) (us : List Use)
    (vs : List V) : Given bs h zero st t us vs ↔ Given bs h' zero st t us vs := by
  have : Means bs h zero st t = Means bs h' zero st t := by
    funext u v; exact propext (means_congr he zero st t u v)
  unfold Given
  rw [this]

theorem forall₂_append_iff {α β : Type} {R : α → β → Prop} {a b : List α} : ∀ {vs : List β}, List.Forall₂ R (a ++ b) vs ↔
    ∃ x y, vs = x ++ y ∧ List.Forall₂ R a x ∧ List.Forall₂ R b y := by
  induction a with
  | nil => intro vs; simp [List.forall₂_nil_left_iff]
  | cons c a ih =>
    intro vs
    rw [List.cons_append, List.forall₂_cons_left_iff]
    simp only [ih]
    constructor
    · rintro ⟨v, vs', h1, ⟨x, y, rfl, h3, h4⟩, rfl⟩
      exact ⟨v :: x, y, rfl, .cons h1 h3, h4⟩
    · rintro ⟨x, y, rfl, h1, h2⟩
      cases h1 with
      | cons h3 h4 => exact ⟨_, _, h3, ⟨_, _, rfl, h4, h2⟩, rfl⟩

theorem given_append {h : History V T W} {zero : V} {st : Stage} {t : Nat} {a b : List Ref} {vs : List V} :
    Given bs h zero st t (uses (a ++ b)) vs ↔
      ∃ x y, vs = x ++ y ∧ Given bs h zero st t (uses a) x ∧ Given bs h zero st t (uses b) y := by
  unfold Given uses
  rw [List.map_append, List.filter_append]
  exact forall₂_append_iff

theorem given_all {h : History V T W} {zero : V} {st : Stage} {t : Nat} {a : List Ref} (ha : ∀ r ∈ a, r.target.isSome) {vs : List V} :
    Given bs h zero st t (uses a) vs ↔ List.Forall₂ (Means bs h zero st t) (uses a) vs := by
  unfold Given
  rw [List.filter_eq_self.2]
  intro u hu
  obtain ⟨r, hr, rfl⟩ := List.mem_map.1 hu
  exact ha r hr

theorem given_length {h : History V T W} {zero : V} {st : Stage} {t : Nat} {a : List Ref} (ha : ∀ r ∈ a, r.target.isSome) {vs : List V}
    (hg : Given bs h zero st t (uses a) vs) : vs.length = a.length := by
  rw [given_all ha] at hg
  rw [← hg.length_eq]
  simp [uses]

theorem given_unique (hn : (bs.map Params.Builder.name).Nodup) {h : History V T W} {zero : V} {st : Stage} {t : Nat} {us : List Use}
    {vs vs' : List V} (h1 : Given bs h zero st t us vs) (h2 : Given bs h zero st t us vs') : vs = vs' := by
  have key : Relator.RightUnique (Means bs h zero st t) := by
    rintro u v v' ⟨m, sh, a1, a2, rfl⟩ ⟨m', sh', b1, b2, rfl⟩
    rw [a1, Option.some_inj] at b1
    rw [a2.unique hn b2, b1]
  exact List.right_unique_forall₂' key h1 h2

theorem given_const {h : History V T W} {zero : V} {t : Nat} {a : List Ref} (ha : ∀ r ∈ a, ∀ sh, Gives bs ⟨r, .before⟩ sh → sh = .const)
    {vs : List V} : Given bs h zero .before t (uses a) vs ↔ Given bs h zero .before 0 (uses a) vs := by
  unfold Given
  have key : ∀ u ∈ uses a, ∀ v, Means bs h zero .before t u v ↔ Means bs h zero .before 0 u v := by
    intro u hu v
    obtain ⟨r, hr, rfl⟩ := List.mem_map.1 hu
    unfold Means
    constructor
    · rintro ⟨m, sh, h1, h2, rfl⟩
      obtain rfl := ha r hr sh h2
      exact ⟨m, _, h1, h2, rfl⟩
    · rintro ⟨m, sh, h1, h2, rfl⟩
      obtain rfl := ha r hr sh h2
      exact ⟨m, _, h1, h2, rfl⟩
  have gen : ∀ (us : List Use), (∀ u ∈ us, ∀ v, Means bs h zero .before t u v ↔ Means bs h zero .before 0 u v) → ∀ vs,
      List.Forall₂ (Means bs h zero .before t) us vs ↔ List.Forall₂ (Means bs h zero .before 0) us vs := by
    intro us
    induction us with
    | nil => intro _ vs; simp [List.forall₂_nil_left_iff]
    | cons u us ih =>
      intro hk vs
      rw [List.forall₂_cons_left_iff, List.forall₂_cons_left_iff]
      simp only [ih fun u hu => hk u (List.mem_cons_of_mem _ hu), hk u (List.mem_cons_self ..)]
  exact gen _ (fun u hu => key u (List.mem_of_mem_filter hu)) vs

/-! ## Inputs -/

theorem reads_iff {key : Option String} {q : ℚ} {v : Val} : v.get key = some q ↔ Reads key q v := by
  cases v with
  | number v => cases key <;> simp [Val.get, Reads, eq_comm]
  | index n => cases key <;> simp [Val.get, Reads, eq_comm]
  | multi vs => cases key <;> simp [Val.get, Reads]

theorem inputIs_iff {t : Nat} {vs : List V} {see : Comp → Option ℚ} {inp : Inp} :
    M.InputIs t vs see inp ↔ inp = M.inp t vs see := by
  have hm : ∀ id q, M.metric vs see id = some q ↔
      match M.source id with
      | .ref j key => ∃ v, vs[j]? = some v ∧ M.read key v = some q
      | .comp c => see c = some q := by
    intro id q
    unfold Whole.metric
    cases M.source id with
    | comp c => rfl
    | ref j key =>
      simp only
      cases vs[j]? with
      | none => simp
      | some v => simp
  constructor
  · rintro ⟨h1, h2, h3⟩
    have : inp.metric = M.metric vs see := by
      funext id
      apply Option.ext
      intro q
      exact (h3 id q).trans (hm id q).symm
    obtain ⟨a, b, c⟩ := inp
    simp only at h1 h2 this
    rw [h1, h2, this]; rfl
  · rintro rfl
    exact ⟨rfl, rfl, hm⟩

end Verif.Coupled
