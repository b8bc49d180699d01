import Verif.Lemmas.Choice
import Verif.Props.Exclusivity

/-!
# C86: with exclusive groups the program is the allocation problem with a choice of groups
-/

namespace Verif.Solver

open Verif.State (NodeKind Edge)
open Verif.Topology (Network TNode)

/-- **C86 (creation).** With exclusive aggregated nodes too, the program can be created exactly when the network has an edge. -/
theorem C86_create (M : Model) (hv : M.Valid) (hmc : MembersConstant M) (hf : M.FactorsOk) (sets : List (List Nat))
    (hg : GroupsAre M sets) (big negBig : ℚ) : (∃ s, create M big negBig sets = .ok s) ↔ M.net.edges ≠ [] := by
  constructor
  · rintro ⟨s, h⟩ h0
    unfold create at h
    rw [(C16_no_edges M.net).1 h0] at h
    cases h
  · intro hne
    obtain ⟨s, _, _, _, _, _, _, h, _⟩ := twin_create hv hmc hf hg big negBig hne
    exact ⟨s, h⟩

/-- The two programs after a step. -/
theorem after_step {M : Model} (hv : M.Valid) (hmc : MembersConstant M) (hf : M.FactorsOk) {sets : List (List Nat)}
    (hg : GroupsAre M sets) {big negBig : ℚ} {s s' : Built} (hs : Reach M big negBig sets s) {st : StepState}
    (h : step M s st = .ok s') :
    ∃ t t' m b b' bins core, Reach M.relax big negBig [] t ∧ step M.relax t st = .ok t' ∧
      Pair2 M big negBig sets s' t' m b b' bins core := by
  obtain ⟨t, m, b, b', bins, core, h1, h2⟩ := reach_pair hv hmc hf hg hs
  obtain ⟨p1, _, p3⟩ := pair_step h2 hv hmc st
  obtain ⟨t', ht⟩ := p1 s' h
  exact ⟨t, t', m, b, b', bins, core, h1, ht, p3 s' t' h ht⟩

/-- **C86 (only choices).** The flows of every solution are allowed for some choice of groups and within the limits of the
program. -/
theorem C86_sound (M : Model) (hv : M.Valid) (hmc : MembersConstant M) (hf : M.FactorsOk) (sets : List (List Nat))
    (hg : GroupsAre M sets) (big negBig : ℚ) (s s' : Built) (hs : Reach M big negBig sets s) (st : StepState)
    (hd : 0 < st.days) (h : step M s st = .ok s') (x : Nat → ℚ) (hx : s'.lp.Feasible x) :
    AllowedChoice M st (s'.flow x) ∧ WithinLimits M big negBig st (s'.flow x) := by
  obtain ⟨t, t', m, b, b', bins, core, h1, h2, h3⟩ := after_step hv hmc hf hg hs h
  obtain ⟨hx', hc⟩ := h3.sound hv hmc hg hx
  obtain ⟨ha, hw⟩ := (C56_feasible M.relax (Model.relax_valid hv) Model.relax_noEx (Model.relax_factors hf) big negBig t t' h1 st hd
    h2 x).1 hx'
  rw [(h3.twin.flow hv x).2] at ha hw
  rw [(h3.twin.flow hv x).1]
  exact ⟨(allowed_relax hv hmc).2 ⟨ha, _, hc⟩, (limits_relax hv hmc).1 hw⟩

/-- **C86 (every choice).** All flows allowed for some choice of groups and within the limits are those of a solution. -/
theorem C86_represented (M : Model) (hv : M.Valid) (hmc : MembersConstant M) (hf : M.FactorsOk) (sets : List (List Nat))
    (hg : GroupsAre M sets) (big negBig : ℚ) (hbig : 1000000 ≤ big) (s s' : Built) (hs : Reach M big negBig sets s)
    (st : StepState) (hd : 0 < st.days) (h : step M s st = .ok s') (f : Nat → ℚ) (ha : AllowedChoice M st f)
    (hw : WithinLimits M big negBig st f) : ∃ x, s'.lp.Feasible x ∧ ∀ e < M.net.edges.length, s'.flow x e = f e := by
  obtain ⟨t, t', m, b, b', bins, core, h1, h2, h3⟩ := after_step hv hmc hf hg hs h
  have hv' := Model.relax_valid hv
  obtain ⟨ha', on, hon⟩ := (allowed_relax hv hmc).1 ha
  have hw' := (limits_relax hv hmc).2 hw
  obtain ⟨y, _, hy⟩ := C56_represented M.relax hv' Model.relax_noEx (Model.relax_factors hf) big negBig t t' h1 st hd h2 f ha' hw'
  -- the values of the binary columns
  let x : Nat → ℚ := fun c => if c < m.colToEdges.length then y c else if on (sets.getD (c - m.colToEdges.length) []) then 1 else 0
  have hfl : ∀ e < M.net.edges.length, via m x e = f e := by
    intro e he
    rw [← hy e he, (h3.twin.flow hv y).2]
    show x (colOf m e) = y (colOf m e)
    exact if_pos ((h3.twin.colsOk hv).2.2.1 e he)
  have hx : t'.lp.Feasible x := by
    refine (C56_feasible M.relax hv' Model.relax_noEx (Model.relax_factors hf) big negBig t t' h1 st hd h2 x).2 ?_
    rw [(h3.twin.flow hv x).2]
    exact ⟨ha'.agree hv' (fun e he => (hfl e he).symm), hw'.agree hv' (fun e he => (hfl e he).symm)⟩
  refine ⟨x, h3.complete hv hmc hg hbig hx (hon.agree hv (fun e he => (hfl e he).symm)) ?_, ?_⟩
  · intro k g hk
    show (if _ then _ else _) = _
    rw [if_neg (by omega), Nat.add_sub_cancel_left, List.getD_eq_getElem?_getD, hk]
    rfl
  · rw [(h3.twin.flow hv x).1]
    exact hfl

/-- **C86 (errors).** Preparing the program of a step succeeds exactly when every value it needs is there, as without groups. -/
theorem C86_defined (M : Model) (hv : M.Valid) (hmc : MembersConstant M) (hf : M.FactorsOk) (sets : List (List Nat))
    (hg : GroupsAre M sets) (big negBig : ℚ) (s : Built) (hs : Reach M big negBig sets s) (st : StepState) :
    (∃ s', step M s st = .ok s') ↔ Defined M st := by
  obtain ⟨t, m, b, b', bins, core, h1, h2⟩ := reach_pair hv hmc hf hg hs
  obtain ⟨p1, p2, _⟩ := pair_step h2 hv hmc st
  rw [← defined_relax hv hmc,
    ← C56_defined M.relax (Model.relax_valid hv) Model.relax_noEx (Model.relax_factors hf) big negBig t h1 st]
  exact ⟨fun ⟨s1, h⟩ => p1 s1 h, fun ⟨s1, h⟩ => p2 s1 h⟩

/-- **C86 (optimum).** The flows of an optimal solution are allowed and of least cost over all choices of groups. -/
theorem C86_optimal (M : Model) (hv : M.Valid) (hmc : MembersConstant M) (hf : M.FactorsOk) (sets : List (List Nat))
    (hg : GroupsAre M sets) (big negBig : ℚ) (hbig : 1000000 ≤ big) (s s' : Built) (hs : Reach M big negBig sets s)
    (st : StepState) (hd : 0 < st.days) (h : step M s st = .ok s') (cost : TNode → ℚ)
    (hcost : ∀ n ∈ M.net.nodes, n.incoming ≠ [] ∨ n.outgoing ≠ [] → CostIs M st.metric n (cost n)) (x : Nat → ℚ)
    (hx1 : s'.lp.Feasible x) (hx2 : ∀ y, s'.lp.Feasible y → s'.lp.objective x ≤ s'.lp.objective y) :
    AllowedChoice M st (s'.flow x) ∧ ∀ f, AllowedChoice M st f → WithinLimits M big negBig st f →
      totalCost M cost (s'.flow x) ≤ totalCost M cost f := by
  have hfx := (C86_sound M hv hmc hf sets hg big negBig s s' hs st hd h x hx1).1
  refine ⟨hfx, fun f ha hw => ?_⟩
  obtain ⟨y, hy1, hy2⟩ := C86_represented M hv hmc hf sets hg big negBig hbig s s' hs st hd h f ha hw
  have hfy := (C86_sound M hv hmc hf sets hg big negBig s s' hs st hd h y hy1).1
  have := hx2 y hy1
  rw [C20_objective M hv big negBig sets s s' hs st h cost hcost x hfx.balanced,
    C20_objective M hv big negBig sets s s' hs st h cost hcost y hfy.balanced, totalCost_agree hv hy2] at this
  exact this

/-- **C86 (order of groups).** Two programs of the same network with the groups in different order have the same flows, and
optimal solutions of the same cost, after any steps before. -/
theorem C86_order (M : Model) (hv : M.Valid) (hmc : MembersConstant M) (hf : M.FactorsOk) (sets sets' : List (List Nat))
    (hg : GroupsAre M sets) (hg' : GroupsAre M sets') (big negBig : ℚ) (hbig : 1000000 ≤ big) (s s1 t t1 : Built)
    (hs : Reach M big negBig sets s) (ht : Reach M big negBig sets' t) (st : StepState) (hd : 0 < st.days)
    (h : step M s st = .ok s1) (h' : step M t st = .ok t1) (x : Nat → ℚ) (hx : s1.lp.Feasible x) :
    ∃ y, t1.lp.Feasible y ∧ (∀ e < M.net.edges.length, t1.flow y e = s1.flow x e) ∧
      ((∀ z, s1.lp.Feasible z → s1.lp.objective x ≤ s1.lp.objective z) →
        ∀ z, t1.lp.Feasible z → t1.lp.objective y ≤ t1.lp.objective z) := by
  obtain ⟨a1, a2⟩ := C86_sound M hv hmc hf sets hg big negBig s s1 hs st hd h x hx
  obtain ⟨y, y1, y2⟩ := C86_represented M hv hmc hf sets' hg' big negBig hbig t t1 ht st hd h' _ a1 a2
  refine ⟨y, y1, y2, fun hopt z hz => ?_⟩
  obtain ⟨cost, hcost⟩ : ∃ cost : TNode → ℚ, ∀ n ∈ M.net.nodes, n.incoming ≠ [] ∨ n.outgoing ≠ [] → CostIs M st.metric n (cost n) := by
    have hdef := ((C86_defined M hv hmc hf sets hg big negBig s hs st).1 ⟨s1, h⟩).costs
    classical
    refine ⟨fun n => if hn : n ∈ M.net.nodes ∧ (n.incoming ≠ [] ∨ n.outgoing ≠ []) then (hdef n hn.1 hn.2).choose else 0, ?_⟩
    intro n hn hne
    simp only [dif_pos (And.intro hn hne)]
    exact (hdef n hn hne).choose_spec
  obtain ⟨b1, b2⟩ := C86_sound M hv hmc hf sets' hg' big negBig t t1 ht st hd h' z hz
  have hy := (C86_sound M hv hmc hf sets' hg' big negBig t t1 ht st hd h' y y1).1
  rw [C20_objective M hv big negBig sets' t t1 ht st h' cost hcost y hy.balanced,
    C20_objective M hv big negBig sets' t t1 ht st h' cost hcost z b1.balanced, totalCost_agree hv y2]
  exact (C86_optimal M hv hmc hf sets hg big negBig hbig s s1 hs st hd h cost hcost x hx hopt).2 _ b1 b2

/-- **C86 (no groups).** Without exclusive aggregated nodes the allocation problem with a choice is the plain one. -/
theorem C86_plain (M : Model) (hx : M.NoExclusivity) (st : StepState) (f : Nat → ℚ) : AllowedChoice M st f ↔ Allowed M st f := by
  have hno : ∀ g, ¬ IsGroup M g := by
    rintro g ⟨a, ha, mn, mx, he, _⟩
    rw [hx a ha] at he; cases he
  constructor
  · intro h
    exact ⟨h.nonneg, h.balanced, fun n hn => h.nodes n hn (fun ⟨g, hg, _⟩ => hno g hg), h.aggs, h.factors, h.vs⟩
  · intro h
    refine ⟨h.nonneg, h.balanced, fun n hn _ => h.nodes n hn, h.aggs, h.factors, h.vs, fun _ => true, ?_, ?_, ?_⟩
    · intro a ha mn mx he
      rw [hx a ha] at he; cases he
    · intro g hg; exact absurd hg (hno g)
    · intro g hg; exact absurd hg (hno g)

/-! ## Cases -/

/-- Two inputs of which exactly one may be used, with flows from 2 to 10. -/
def eitherM : Model := exclusiveM { plainNode with minFlow := some (.const 2), maxFlow := some (.const 10) }

theorem eitherM_constant : MembersConstant eitherM := by
  have hb : ∀ i, i = 0 ∨ i = 2 → ConstantBounds eitherM i 2 10 := by
    intro i hi
    have hk : ∃ n, (netOf twoB).nodes[i]? = some n ∧ n.kind ≠ .storage := by
      rcases hi with rfl | rfl <;> exact ⟨_, rfl, by decide +kernel⟩
    obtain ⟨n, h1, h2⟩ := hk
    exact ⟨n, h1, h2, Or.inl (by simp [eitherM, exclusiveM, hi]), Or.inl (by simp [eitherM, exclusiveM, hi])⟩
  intro a ha mn mx he g hg i hi
  have ha' : a = ⟨[[0], [2]], none, none, some (.exclusive 1 1)⟩ := by simpa [eitherM, exclusiveM] using ha
  subst ha'
  refine ⟨2, 10, hb i ?_⟩
  simp only [List.mem_cons, List.not_mem_nil, or_false] at hg
  rcases hg with rfl | rfl
  · left; simpa using hi
  · right; simpa using hi

theorem eitherM_groups (g : List Nat) : IsGroup eitherM g ↔ g = [0] ∨ g = [2] := by
  constructor
  · rintro ⟨a, ha, mn, mx, he, hg⟩
    have ha' : a = ⟨[[0], [2]], none, none, some (.exclusive 1 1)⟩ := by simpa [eitherM, exclusiveM] using ha
    subst ha'
    simpa using hg
  · intro h
    exact ⟨⟨[[0], [2]], none, none, some (.exclusive 1 1)⟩, by simp [eitherM, exclusiveM], 1, 1, rfl, by simpa using h⟩

theorem eitherM_factors : eitherM.FactorsOk := by
  have hall : ∀ a ∈ eitherM.aggs, a = ⟨[[0], [2]], none, none, some (.exclusive 1 1)⟩ := by
    intro a ha
    simpa [eitherM, exclusiveM] using ha
  refine ⟨fun a ha => ?_, fun a ha F hF => ?_, fun a ha p hp => ?_, fun a ha p hp => ?_, ?_⟩
  · rw [hall a ha]; intro F hF; cases hF
  · rw [hall a ha] at hF; cases hF
  · rw [hall a ha] at hp; cases hp
  · rw [hall a ha] at hp; cases hp
  · exact List.Pairwise.nil

/-- The hypotheses are met, with the groups in either order, and steps follow the creation. -/
example : eitherM.Valid ∧ MembersConstant eitherM ∧ eitherM.FactorsOk ∧ GroupsAre eitherM [[0], [2]] ∧
    GroupsAre eitherM [[2], [0]] ∧ 0 < lostSt.days ∧ (1000000 : ℚ) ≤ f64MAX ∧
    (∃ s s', Reach eitherM f64MAX (-f64MAX) [[0], [2]] s ∧ step eitherM s lostSt = .ok s' ∧ s'.lp.Feasible (vals [0, 7, 0, 1])) ∧
    ∃ s s', Reach eitherM f64MAX (-f64MAX) [[2], [0]] s ∧ step eitherM s lostSt = .ok s' ∧ s'.lp.Feasible (vals [0, 7, 1, 0]) := by
  refine ⟨exclusiveM_valid _, eitherM_constant, eitherM_factors, ?_, ?_, by decide +kernel, million_le_max, ?_, ?_⟩
  · intro g; rw [eitherM_groups]; simp
  · intro g; rw [eitherM_groups]; simp [or_comm]
  · refine ⟨_, _, .create _ (builtWith_ok _ _ (by decide +kernel)), stepped_ok _ _ _ (by decide +kernel),
      Lp.checkInt_feasible _ _ (by decide +kernel)⟩
  · exact ⟨_, _, .create _ (builtWith_ok _ _ (by decide +kernel)), stepped_ok _ _ _ (by decide +kernel),
      Lp.checkInt_feasible _ _ (by decide +kernel)⟩

/-- Flows of 7 from both inputs are not allowed, whatever the choice. -/
example : ¬ AllowedChoice eitherM lostSt (vals [7, 7]) := by
  intro h
  obtain ⟨on, hon⟩ := h.choice
  have h0 : flowAt eitherM.net (vals [7, 7]) 0 ≠ 0 := by decide +kernel
  have h2 : flowAt eitherM.net (vals [7, 7]) 2 ≠ 0 := by decide +kernel
  have c := hon.count ⟨[[0], [2]], none, none, some (.exclusive 1 1)⟩ (by simp [eitherM, exclusiveM]) 1 1 rfl
  cases o0 : on [0] with
  | false => exact h0 (hon.idle [0] ((eitherM_groups _).2 (Or.inl rfl)) o0 0 (by simp))
  | true =>
    cases o2 : on [2] with
    | false => exact h2 (hon.idle [2] ((eitherM_groups _).2 (Or.inr rfl)) o2 2 (by simp))
    | true => simp [o0, o2] at c

end Verif.Solver
