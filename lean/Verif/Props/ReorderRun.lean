import Verif.Lemmas.ReorderRun

/-! # C108: whole runs do not depend on the order of nodes and edges -/

namespace Verif.Reorder

open Verif.Solver Verif.Topology
open Verif.State (NetworkState VSNode)
open Verif.Simulation (Sim SimState SimErr Inp Record Inv StepsOk RollOk VsIn colFlow)

variable {ρ : Nat → Nat} {b b' : Builder} {S S' : Sim} {inp inp' : Inp} {s s' : SimState} {big negBig : ℚ}

/-- Both steps fail in the same way before they ask their solvers, or they ask for flows of least cost that are the same. -/
theorem step_core (h : Reordered ρ b b') (hm : SameSim ρ S S') (hb : b.build = .ok S.net) (hb' : b'.build = .ok S'.net) (hv : S.Valid)
    (hv' : S'.Valid) (hbig : 1000000 ≤ big) (hi : Inv S big negBig s) (hi' : Inv S' big negBig s') (hs : SameNet ρ b b' s.network s'.network)
    (hinp : SameInp inp inp') (hd : 0 < inp.t.days) :
    (∃ e e', S.step inp s = .error e ∧ S'.step inp' s' = .error e' ∧ SameErr e e') ∨
    ∃ B B' s₁ s₁', S.bounds inp.metric = some B ∧ S'.bounds inp'.metric = some B' ∧ SameBounds ρ B B' ∧
      Solver.step S.model s.solver (S.stepState inp B (S.pre inp B s.network)) = .ok s₁ ∧
      Solver.step S'.model s'.solver (S'.stepState inp' B' (S'.pre inp' B' s'.network)) = .ok s₁' ∧ ∀ φ, Best s₁' b' φ ↔ Best s₁ b φ := by
  rcases bounds_same h hm hb hb' inp.metric with ⟨h1, h2⟩ | ⟨B, B', h1, h2, hB⟩
  · left
    refine ⟨.volumeBounds, .volumeBounds, ?_, ?_, trivial⟩
    · unfold Sim.step; rw [h1]
    · unfold Sim.step; rw [hinp.metric, h2]
  have hpre := pre_same h hm hb hb' hinp hB hs
  have hst := stepState_same hm hinp hB hpre
  have h2' : S'.bounds inp'.metric = some B' := by rw [hinp.metric, h2]
  have key := C106_step (M := S.model) (M' := S'.model) h (sameModel hm) hst hb hb' (treated hv) hv.groups hv'.groups hi.reach hi'.reach
  cases e1 : Solver.step S.model s.solver (S.stepState inp B (S.pre inp B s.network)) with
  | error e =>
    left
    cases e2 : Solver.step S'.model s'.solver (S'.stepState inp' B' (S'.pre inp' B' s'.network)) with
    | error e' =>
      refine ⟨.solve e, .solve e', ?_, ?_, trivial⟩
      · unfold Sim.step; simp only [h1, e1]
      · unfold Sim.step; simp only [h2', e2]
    | ok s₁' =>
      obtain ⟨s₁, h3⟩ := key.1 ⟨_, e2⟩
      rw [e1] at h3; cases h3
  | ok s₁ =>
    right
    obtain ⟨s₁', e2⟩ := key.2 ⟨_, e1⟩
    exact ⟨B, B', s₁, s₁', h1, h2', hB, e1, e2,
      C106_best (M := S.model) (M' := S'.model) h (sameModel hm) hst hb hb' (treated hv) hv.groups hv'.groups hbig hi.reach hi'.reach hd e1 e2⟩

theorem step_none {B : State.Bounds} {s₁ : Built} (h1 : S.bounds inp.metric = some B)
    (h2 : Solver.step S.model s.solver (S.stepState inp B (S.pre inp B s.network)) = .ok s₁) (h3 : inp.solve s₁.lp = none) :
    S.step inp s = .error .infeasible := by
  unfold Sim.step
  simp only [h1, h2, h3]

theorem step_some (hv : S.Valid) {rest : List Inp} (hi : Inv S big negBig s) (hok : StepsOk S (inp :: rest))
    (hhead : inp.t.index = 0 ∨ VsIn S inp s.network) {B : State.Bounds} {s₁ : Built} {x : Nat → ℚ} (h1 : S.bounds inp.metric = some B)
    (h2 : Solver.step S.model s.solver (S.stepState inp B (S.pre inp B s.network)) = .ok s₁) (h3 : inp.solve s₁.lp = some x) :
    ∃ post, State.applySolution S.stateNet B inp.t (colFlow s₁ x) (S.pre inp B s.network) = .ok post ∧
      S.step inp s = .ok (⟨post, s₁⟩, ⟨inp, B, S.pre inp B s.network, colFlow s₁ x, post⟩) := by
  have hmain := (Simulation.steps_main hv hi hok hhead).1
  cases h4 : State.applySolution S.stateNet B inp.t (colFlow s₁ x) (S.pre inp B s.network) with
  | error e =>
    have : S.step inp s = .error (.state e) := by unfold Sim.step; simp only [h1, h2, h3, h4]
    exact (hmain _ this).elim
  | ok post => exact ⟨post, rfl, by unfold Sim.step; simp only [h1, h2, h3, h4]⟩

theorem stepsOk_same (hm : SameSim ρ S S') (hinp : SameInp inp inp') (hsound : ∀ lp x, inp'.solve lp = some x → lp.Feasible x) {rest : List Inp}
    (hok : StepsOk S (inp :: rest)) : StepsOk S' [inp'] := by
  have hmem : inp ∈ inp :: rest := List.mem_cons_self ..
  refine ⟨?_, ?_, ?_, List.pairwise_singleton _ _, ?_, fun _ => List.pairwise_singleton _ _⟩
  · intro i hi; rw [List.mem_singleton.1 hi, hinp.t]; exact hok.days _ hmem
  · intro i hi; rw [List.mem_singleton.1 hi]; exact hsound
  · intro i hi k n lo hi' hn hvol
    rw [List.mem_singleton.1 hi, hinp.metric, hm.vsMin, hm.vsMax] at hvol
    rw [hm.vsNodes, List.getElem?_map] at hn
    obtain ⟨n₀, hn0, rfl⟩ := Option.map_eq_some_iff.1 hn
    exact hok.start _ hmem k n₀ lo hi' hn0 hvol
  · intro i hi k n lo hi' hn hw hvol
    rw [List.mem_singleton.1 hi] at hvol ⊢
    rw [hinp.metric, hm.vsMin, hm.vsMax] at hvol
    rw [hm.vsNodes, List.getElem?_map] at hn
    obtain ⟨n₀, hn0, rfl⟩ := Option.map_eq_some_iff.1 hn
    rw [hinp.t]
    exact hok.rolling _ hmem k n₀ lo hi' hn0 hw hvol

theorem head_same (hm : SameSim ρ S S') (hinp : SameInp inp inp') (hs : SameNet ρ b b' s.network s'.network)
    (hhead : inp.t.index = 0 ∨ VsIn S inp s.network) : inp'.t.index = 0 ∨ VsIn S' inp' s'.network := by
  rw [hinp.t]
  refine hhead.imp id fun hin k n lo hi hn hvol => ?_
  rw [hinp.metric, hm.vsMin, hm.vsMax] at hvol
  rw [hm.vsNodes, List.getElem?_map] at hn
  obtain ⟨n₀, hn0, rfl⟩ := Option.map_eq_some_iff.1 hn
  rw [hs.vs, hinp.t]
  exact hin k n₀ lo hi hn0 hvol

/-- Two steps in which the solvers return the same flows. -/
theorem step_pair (h : Reordered ρ b b') (hm : SameSim ρ S S') (hb : b.build = .ok S.net) (hb' : b'.build = .ok S'.net) (hv : S.Valid)
    (hv' : S'.Valid) (hi : Inv S big negBig s) (hi' : Inv S' big negBig s') (hs : SameNet ρ b b' s.network s'.network)
    (hinp : SameInp inp inp') {rest : List Inp} (hok : StepsOk S (inp :: rest)) (hhead : inp.t.index = 0 ∨ VsIn S inp s.network)
    (hsound : ∀ lp x, inp'.solve lp = some x → lp.Feasible x)
    {B B' : State.Bounds} {s₁ s₁' : Built} {x y : Nat → ℚ} (h1 : S.bounds inp.metric = some B) (h1' : S'.bounds inp'.metric = some B')
    (hB : SameBounds ρ B B') (h2 : Solver.step S.model s.solver (S.stepState inp B (S.pre inp B s.network)) = .ok s₁)
    (h2' : Solver.step S'.model s'.solver (S'.stepState inp' B' (S'.pre inp' B' s'.network)) = .ok s₁')
    (h3 : inp.solve s₁.lp = some x) (h3' : inp'.solve s₁'.lp = some y) {φ : EdgeDecl → ℚ} (hx : Means s₁ b x φ) (hy : Means s₁' b' y φ) :
    ∃ t t' r r', S.step inp s = .ok (t, r) ∧ S'.step inp' s' = .ok (t', r') ∧ SameRecord ρ b b' r r' ∧
      SameNet ρ b b' t.network t'.network ∧ Inv S big negBig t ∧ Inv S' big negBig t' ∧
      ∀ inp₂, rest.head? = some inp₂ → inp₂.t.index = 0 ∨ VsIn S inp₂ t.network := by
  have hok' := stepsOk_same hm hinp hsound hok
  have hhead' := head_same hm hinp hs hhead
  obtain ⟨p, hp, hst⟩ := step_some hv hi hok hhead h1 h2 h3
  obtain ⟨p', hp', hst'⟩ := step_some hv' hi' hok' hhead' h1' h2' h3'
  obtain ⟨i1, -, -, -, i5, i6⟩ := (Simulation.steps_main hv hi hok hhead).2 _ _ hst
  obtain ⟨i1', -, -, -, i5', -⟩ := (Simulation.steps_main hv' hi' hok' hhead').2 _ _ hst'
  have hpre := pre_same h hm hb hb' hinp hB hs
  have flow : SameFlow b b' (colFlow s₁ x) (colFlow s₁' y) := fun k k' e he he' => (hy k' e he').trans (hx k e he).symm
  have edges : ∀ (k k' : Nat) (e : EdgeDecl), b.edges[k]? = some e → b'.edges[k']? = some e → p'.edges[k']? = p.edges[k]? := by
    intro k k' e he he'
    have a := i5.edges k (by rw [edges_length hb]; exact (List.getElem?_eq_some_iff.1 he).1)
    have a' := i5'.edges k' (by rw [edges_length hb']; exact (List.getElem?_eq_some_iff.1 he').1)
    have get : ∀ {q : NetworkState} {j : Nat} {v : ℚ}, q.edgeFlow j = .ok v → q.edges[j]? = some v := by
      intro q j v hq
      unfold NetworkState.edgeFlow at hq
      cases hj : q.edges[j]? with
      | none => rw [hj] at hq; cases hq
      | some w => rw [hj] at hq; rw [Except.ok.inj hq]
    have g1 : p.edges[k]? = some (colFlow s₁ x k) := get a
    have g2 : p'.edges[k']? = some (colFlow s₁' y k') := get a'
    rw [g1, g2, flow k k' e he he']
  have c1 : State.applySolution S.stateNet B inp.t (along b φ) (S.pre inp B s.network) = .ok p := by
    rw [← hp]
    refine (apply_congr (fun e he => ?_) _).symm
    obtain ⟨k, hk⟩ := List.mem_iff_getElem?.1 he
    have hk' : S.net.edges[k]? = some e := hk
    rw [((Simulation.wf hv).index k e hk').1]
    exact (means_flow hb).1 hx k (List.getElem?_eq_some_iff.1 hk').1
  have c2 : State.applySolution S'.stateNet B' inp.t (along b' φ) (S'.pre inp' B' s'.network) = .ok p' := by
    rw [← hp', hinp.t]
    refine (apply_congr (fun e he => ?_) _).symm
    obtain ⟨k, hk⟩ := List.mem_iff_getElem?.1 he
    have hk' : S'.net.edges[k]? = some e := hk
    rw [((Simulation.wf hv').index k e hk').1]
    exact (means_flow hb').1 hy k (List.getElem?_eq_some_iff.1 hk').1
  have hlen : (S.pre inp B s.network).vs.length = S.vsNodes.length := by
    have := hi.wf.vs
    simp only [Sim.stateNet] at this
    simp [Sim.pre, State.preSolve, State.vsBefore, this]
  have hln : (S.pre inp B s.network).nodes.length = S.net.nodes.length := by
    have := hi.wf.nodes
    simp only [Sim.stateNet, List.length_map] at this
    simp [Sim.pre, State.preSolve, State.nodesBefore, this]
  obtain ⟨d1, d2⟩ := post_same h hm hb hb' hv hv' hB hpre hlen hln φ c1 c2
  exact ⟨_, _, _, _, hst, hst', ⟨hinp, hpre, flow, ⟨d1, edges, d2⟩⟩, ⟨d1, edges, d2⟩, i1, i1', i6⟩

/-- What a solver returns is best. -/
theorem best_of {solve : Lp → Option (Nat → ℚ)} (hf : Finds solve) {net : Network} (hb : b.build = .ok net) {s₁ : Built} {x : Nat → ℚ}
    (hx : solve s₁.lp = some x) : ∃ φ, Means s₁ b x φ ∧ Best s₁ b φ := by
  obtain ⟨φ, hφ⟩ := means_exists hb s₁ x
  exact ⟨φ, hφ, x, hf.sound _ _ hx, hφ, hf.least _ _ hx⟩

theorem Finds.of_best {solve : Lp → Option (Nat → ℚ)} (hf : Finds solve) {s₁ : Built} {φ : EdgeDecl → ℚ} (h : Best s₁ b φ) :
    ∃ x, solve s₁.lp = some x := by
  obtain ⟨x, hx, -, hl⟩ := h
  exact hf.finds _ ⟨x, hx, hl⟩

theorem run_error {rest : List Inp} {e : SimErr} (h : S.step inp s = .error e) : S.run (inp :: rest) s = ([], .error e) := by
  simp only [Sim.run, h]

theorem run_ok {rest : List Inp} {t : SimState} {r : Record} (h : S.step inp s = .ok (t, r)) :
    S.run (inp :: rest) s = (r :: (S.run rest t).1, (S.run rest t).2) := by
  simp only [Sim.run, h]

/-- Flows as cheap as those of a step in which no others are as cheap. -/
theorem unique_eq (hb : b.build = .ok S.net) (hv : S.Valid) (hi : Inv S big negBig s) (hd : 0 < inp.t.days) {B : State.Bounds}
    {s₁ : Built} (h1 : S.bounds inp.metric = some B)
    (h2 : Solver.step S.model s.solver (S.stepState inp B (S.pre inp B s.network)) = .ok s₁) {x : Nat → ℚ} (hx : s₁.lp.Feasible x)
    {post : NetworkState} (hu : Unique S big negBig ⟨inp, B, S.pre inp B s.network, colFlow s₁ x, post⟩) {φ ψ : EdgeDecl → ℚ}
    (hφ : Means s₁ b x φ) (hψ : Best s₁ b ψ) : ∀ e ∈ b.edges, ψ e = φ e := by
  obtain ⟨z, hz, hmz, hl⟩ := hψ
  have hsh := Simulation.shows hv hi inp B h1
  have sound := C86_sound S.model hv.model hv.constant hv.factors S.sets hv.groups big negBig s.solver s₁ hi.reach _ hd h2
  obtain ⟨a1, a2⟩ := sound z hz
  obtain ⟨b1, -⟩ := sound x hx
  have := hu (colFlow s₁ z) ((Simulation.allowed_iff hv hsh _).1 a1) ((Simulation.within_iff hsh _ _ _).1 a2) (by
    intro cost hcost
    have hc : ∀ n ∈ S.model.net.nodes, n.incoming ≠ [] ∨ n.outgoing ≠ [] →
        CostIs S.model (S.stepState inp B (S.pre inp B s.network)).metric n (cost n) :=
      fun n hn hu => (Simulation.costIs_iff _ _ _).2 (hcost n hn hu)
    have o1 := C20_objective S.model hv.model big negBig S.sets s.solver s₁ hi.reach _ h2 cost hc z a1.balanced
    have o2 := C20_objective S.model hv.model big negBig S.sets s.solver s₁ hi.reach _ h2 cost hc x b1.balanced
    rw [← Simulation.totalCost_eq, ← Simulation.totalCost_eq]
    show totalCost S.model cost (s₁.flow z) ≤ totalCost S.model cost (s₁.flow x)
    rw [← o1, ← o2]
    exact hl x hx)
  intro e he
  obtain ⟨k, hk⟩ := List.mem_iff_getElem?.1 he
  have e1 := this k (by rw [edges_length hb]; exact (List.getElem?_eq_some_iff.1 hk).1)
  rw [← hmz k e hk, ← hφ k e hk]
  exact e1

theorem run_same (h : Reordered ρ b b') (hm : SameSim ρ S S') (hb : b.build = .ok S.net) (hb' : b'.build = .ok S'.net) (hv : S.Valid)
    (hv' : S'.Valid) (hbig : 1000000 ≤ big) (inputs : List Inp) : ∀ (inputs' : List Inp) (s s' : SimState), Inv S big negBig s → Inv S' big negBig s' →
    SameNet ρ b b' s.network s'.network → StepsOk S inputs → (∀ inp, inputs.head? = some inp → inp.t.index = 0 ∨ VsIn S inp s.network) →
    List.Forall₂ SameInp inputs inputs' → (∀ inp ∈ inputs, Finds inp.solve) → (∀ inp ∈ inputs', Finds inp.solve) →
    (∀ r ∈ (S.run inputs s).1, Unique S big negBig r) →
    List.Forall₂ (SameRecord ρ b b') (S.run inputs s).1 (S'.run inputs' s').1 ∧ SameEnd ρ b b' (S.run inputs s).2 (S'.run inputs' s').2 := by
  induction inputs with
  | nil =>
    intro inputs' s s' _ _ hs _ _ hall _ _ _
    cases hall
    exact ⟨List.Forall₂.nil, hs⟩
  | cons inp rest ih =>
    intro inputs' s s' hi hi' hs hok hhead hall hf hf' hu
    obtain ⟨inp', rest', hinp, hrest, rfl⟩ := List.forall₂_cons_left_iff.1 hall
    have hfi := hf inp (List.mem_cons_self ..)
    have hfi' := hf' inp' (List.mem_cons_self ..)
    have hd := hok.days inp (List.mem_cons_self ..)
    have hh := hhead inp rfl
    rcases step_core h hm hb hb' hv hv' hbig hi hi' hs hinp hd with ⟨e, e', h1, h2, he⟩ | ⟨B, B', s₁, s₁', h1, h1', hB, h2, h2', hbest⟩
    · rw [run_error h1, run_error h2]
      exact ⟨List.Forall₂.nil, he⟩
    cases h3 : inp.solve s₁.lp with
    | none =>
      cases h3' : inp'.solve s₁'.lp with
      | none =>
        rw [run_error (step_none h1 h2 h3), run_error (step_none h1' h2' h3')]
        exact ⟨List.Forall₂.nil, trivial⟩
      | some y =>
        obtain ⟨ψ, -, hψ⟩ := best_of hfi' hb' h3'
        obtain ⟨x, hx⟩ := hfi.of_best ((hbest ψ).1 hψ)
        rw [h3] at hx; cases hx
    | some x =>
      obtain ⟨φ, hφ, hφb⟩ := best_of hfi hb h3
      obtain ⟨y, h3'⟩ := hfi'.of_best ((hbest φ).2 hφb)
      obtain ⟨ψ, hψ, hψb⟩ := best_of hfi' hb' h3'
      obtain ⟨post, -, hst⟩ := step_some hv hi hok hh h1 h2 h3
      have hu0 := hu _ (by rw [run_ok hst]; exact List.mem_cons_self ..)
      have heq := unique_eq hb hv hi hd h1 h2 (hfi.sound _ _ h3) hu0 hφ ((hbest ψ).1 hψb)
      have hy : Means s₁' b' y φ := fun k e he => (hψ k e he).trans (heq e (h.edges.mem_iff.1 (List.mem_of_getElem? he)))
      obtain ⟨t, t', r, r', e1, e2, e3, e4, e5, e6, e7⟩ := step_pair h hm hb hb' hv hv' hi hi' hs hinp hok hh hfi'.sound h1 h1' hB h2 h2' h3 h3' hφ hy
      have key := ih rest' t t' e5 e6 e4 hok.tail e7 hrest (fun i hi => hf i (List.mem_cons_of_mem _ hi)) (fun i hi => hf' i (List.mem_cons_of_mem _ hi))
        (fun r hr => hu r (by rw [run_ok e1]; exact List.mem_cons_of_mem _ hr))
      rw [run_ok e1, run_ok e2]
      exact ⟨List.Forall₂.cons e3 key.1, key.2⟩

open Classical in
/-- A solver that returns `y` for one program. -/
noncomputable def prefer (lp : Lp) (y : Nat → ℚ) (l : Lp) : Option (Nat → ℚ) :=
  if l = lp then some y
  else if hx : ∃ x, l.Feasible x ∧ ∀ z, l.Feasible z → l.objective x ≤ l.objective z then some hx.choose else none

theorem prefer_finds {lp : Lp} {y : Nat → ℚ} (hy : lp.Feasible y) (hl : ∀ z, lp.Feasible z → lp.objective y ≤ lp.objective z) : Finds (prefer lp y) where
  sound := by
    intro l x hx
    unfold prefer at hx
    split_ifs at hx with h1 h2
    · cases hx; rw [h1]; exact hy
    · cases hx; exact h2.choose_spec.1
  least := by
    intro l x hx
    unfold prefer at hx
    split_ifs at hx with h1 h2
    · cases hx; rw [h1]; exact hl
    · cases hx; exact h2.choose_spec.2
  finds := by
    intro l hx
    unfold prefer
    split_ifs with h1
    · exact ⟨_, rfl⟩
    · exact ⟨_, rfl⟩

theorem run_possible (h : Reordered ρ b b') (hm : SameSim ρ S S') (hb : b.build = .ok S.net) (hb' : b'.build = .ok S'.net) (hv : S.Valid)
    (hv' : S'.Valid) (hbig : 1000000 ≤ big) (inputs : List Inp) : ∀ s s' : SimState, Inv S big negBig s → Inv S' big negBig s' →
    SameNet ρ b b' s.network s'.network → StepsOk S inputs → (∀ inp, inputs.head? = some inp → inp.t.index = 0 ∨ VsIn S inp s.network) →
    (∀ inp ∈ inputs, Finds inp.solve) →
    ∃ inputs', List.Forall₂ SameInp inputs inputs' ∧ (∀ inp ∈ inputs', Finds inp.solve) ∧
    List.Forall₂ (SameRecord ρ b b') (S.run inputs s).1 (S'.run inputs' s').1 ∧ SameEnd ρ b b' (S.run inputs s).2 (S'.run inputs' s').2 := by
  induction inputs with
  | nil => intro s s' _ _ hs _ _ _; exact ⟨[], List.Forall₂.nil, fun _ h => (by cases h), List.Forall₂.nil, hs⟩
  | cons inp rest ih =>
    intro s s' hi hi' hs hok hhead hf
    have hfi := hf inp (List.mem_cons_self ..)
    have hd := hok.days inp (List.mem_cons_self ..)
    have hh := hhead inp rfl
    have refl : List.Forall₂ SameInp (inp :: rest) (inp :: rest) := List.forall₂_same.2 fun _ _ => ⟨rfl, rfl⟩
    rcases step_core h hm hb hb' hv hv' hbig hi hi' hs (⟨rfl, rfl⟩ : SameInp inp inp) hd with
      ⟨e, e', h1, h2, he⟩ | ⟨B, B', s₁, s₁', h1, h1', hB, h2, h2', hbest⟩
    · refine ⟨inp :: rest, refl, hf, ?_⟩
      rw [run_error h1, run_error h2]
      exact ⟨List.Forall₂.nil, he⟩
    cases h3 : inp.solve s₁.lp with
    | none =>
      refine ⟨inp :: rest, refl, hf, ?_⟩
      cases h3' : inp.solve s₁'.lp with
      | none =>
        rw [run_error (step_none h1 h2 h3), run_error (step_none h1' h2' h3')]
        exact ⟨List.Forall₂.nil, trivial⟩
      | some y =>
        obtain ⟨ψ, -, hψ⟩ := best_of hfi hb' h3'
        obtain ⟨x, hx⟩ := hfi.of_best ((hbest ψ).1 hψ)
        rw [h3] at hx; cases hx
    | some x =>
      obtain ⟨φ, hφ, hφb⟩ := best_of hfi hb h3
      obtain ⟨y, hy1, hy2, hy3⟩ := (hbest φ).2 hφb
      have hp := prefer_finds hy1 hy3
      obtain ⟨t, t', r, r', e1, e2, e3, e4, e5, e6, e7⟩ := step_pair (inp := inp) (inp' := { inp with solve := prefer s₁'.lp y }) h hm hb hb' hv hv' hi hi' hs ⟨rfl, rfl⟩
        hok hh hp.sound h1 h1' hB h2 h2' h3 (if_pos rfl) hφ hy2
      obtain ⟨rest', k1, k2, k3, k4⟩ := ih t t' e5 e6 e4 hok.tail e7 (fun i hi => hf i (List.mem_cons_of_mem _ hi))
      refine ⟨{ inp with solve := prefer s₁'.lp y } :: rest', List.Forall₂.cons ⟨rfl, rfl⟩ k1, ?_, ?_⟩
      · intro i hi
        rcases List.mem_cons.1 hi with rfl | hi
        · exact hp
        · exact k2 i hi
      · rw [run_ok e1, run_ok e2]
        exact ⟨List.Forall₂.cons e3 k3, k4⟩

theorem initial_same (h : Reordered ρ b b') (hm : SameSim ρ S S') (hb : b.build = .ok S.net) (hb' : b'.build = .ok S'.net)
    (hs : S.initial big negBig = .ok s) (hs' : S'.initial big negBig = .ok s') : SameNet ρ b b' s.network s'.network := by
  have get : ∀ {T : Sim} {t : SimState}, T.initial big negBig = .ok t → t.network = T.initialNetwork := by
    intro T t ht
    unfold Sim.initial at ht
    cases hc : create T.model big negBig T.sets with
    | error e => rw [hc] at ht; cases ht
    | ok q => rw [hc] at ht; cases ht; rfl
  rw [get hs, get hs']
  refine ⟨fun i => ?_, fun k k' e he he' => ?_, ?_⟩
  · simp only [Sim.initialNetwork, List.getElem?_map, nodes_at hb, nodes_at hb', h.moved, Option.map_map]
    rfl
  · have h1 : k < S.net.edges.length := by rw [edges_length hb]; exact (List.getElem?_eq_some_iff.1 he).1
    have h2 : k' < S'.net.edges.length := by rw [edges_length hb']; exact (List.getElem?_eq_some_iff.1 he').1
    simp only [Sim.initialNetwork, List.getElem?_map, List.getElem?_eq_getElem h1, List.getElem?_eq_getElem h2, Option.map_some]
  · simp only [Sim.initialNetwork, hm.vsNodes, List.map_map]
    rfl

/-! ## The property -/

/-- **C108 (runs).** If in every step no other flows are as cheap, a run in another order of nodes and edges goes through the same states,
with the same flows along the same edges, and ends in the same way. -/
theorem C108_run (h : Reordered ρ b b') (hm : SameSim ρ S S') (hb : b.build = .ok S.net) (hb' : b'.build = .ok S'.net) (hv : S.Valid)
    (hg' : GroupsAre S'.model S'.sets) (hbig : 1000000 ≤ big) (inputs inputs' : List Inp) (hi : S.InputsOk inputs)
    (hall : List.Forall₂ SameInp inputs inputs') (hf : ∀ inp ∈ inputs, Finds inp.solve) (hf' : ∀ inp ∈ inputs', Finds inp.solve)
    (hs : S.initial big negBig = .ok s) (hs' : S'.initial big negBig = .ok s') (hu : ∀ r ∈ (S.run inputs s).1, Unique S big negBig r) :
    List.Forall₂ (SameRecord ρ b b') (S.run inputs s).1 (S'.run inputs' s').1 ∧ SameEnd ρ b b' (S.run inputs s).2 (S'.run inputs' s').2 := by
  have hv' := valid_same h hm hb hb' hv hg'
  exact run_same h hm hb hb' hv hv' hbig inputs inputs' s s' (Simulation.inv_initial hv hs) (Simulation.inv_initial hv' hs')
    (initial_same h hm hb hb' hs hs') (Simulation.stepsOk hi) (fun inp h => Or.inl (Simulation.headOk hi.index inp h)) hall hf hf' hu

/-- **C108 (possible runs).** What may happen in a run in one order, with whatever flows of least cost, may happen in another. -/
theorem C108_possible (h : Reordered ρ b b') (hm : SameSim ρ S S') (hb : b.build = .ok S.net) (hb' : b'.build = .ok S'.net) (hv : S.Valid)
    (hg' : GroupsAre S'.model S'.sets) (hbig : 1000000 ≤ big) (inputs : List Inp) (hi : S.InputsOk inputs)
    (hf : ∀ inp ∈ inputs, Finds inp.solve) (hs : S.initial big negBig = .ok s) (hs' : S'.initial big negBig = .ok s') :
    ∃ inputs', List.Forall₂ SameInp inputs inputs' ∧ (∀ inp ∈ inputs', Finds inp.solve) ∧
      List.Forall₂ (SameRecord ρ b b') (S.run inputs s).1 (S'.run inputs' s').1 ∧ SameEnd ρ b b' (S.run inputs s).2 (S'.run inputs' s').2 := by
  have hv' := valid_same h hm hb hb' hv hg'
  exact run_possible h hm hb hb' hv hv' hbig inputs s s' (Simulation.inv_initial hv hs) (Simulation.inv_initial hv' hs')
    (initial_same h hm hb hb' hs hs') (Simulation.stepsOk hi) (fun inp h => Or.inl (Simulation.headOk hi.index inp h)) hf

/-- **C108 (set-up).** A network is set up in one order exactly if it is in another. -/
theorem C108_setup (h : Reordered ρ b b') (hm : SameSim ρ S S') (hb : b.build = .ok S.net) (hb' : b'.build = .ok S'.net) (hv : S.Valid)
    (hg' : GroupsAre S'.model S'.sets) : (∃ s, S'.initial big negBig = .ok s) ↔ ∃ s, S.initial big negBig = .ok s := by
  rw [Simulation.C60_setup hv, Simulation.C60_setup (valid_same h hm hb hb' hv hg')]
  have := h.edges.length_eq
  rw [← edges_length hb, ← edges_length hb'] at this
  rw [← List.length_pos_iff, ← List.length_pos_iff, this]

end Verif.Reorder
