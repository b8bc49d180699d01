import Verif.Lemmas.BackendsMicro
import Verif.Props.Choice

/-! # Answers of solver libraries, and flows that agree on all edges -/

namespace Verif.Backends

open Verif.Solver

theorem AllowedChoice.agree {M : Model} {st : StepState} {f g : Nat → ℚ} (hv : M.Valid)
    (h : ∀ e < M.net.edges.length, f e = g e) (ha : AllowedChoice M st f) : AllowedChoice M st g := by
  refine ⟨?_, ?_, ?_, ?_, ?_, ?_, ?_⟩
  · intro e he; rw [← h e he]; exact ha.nonneg e he
  · intro n hn hk
    have hb := ha.balanced n hn hk
    have h1 : n.incoming.map f = n.incoming.map g :=
      List.map_congr_left (fun e he => h e (edges_in_range (Created.wf hv) n hn e (Or.inl he)))
    have h2 : n.outgoing.map f = n.outgoing.map g :=
      List.map_congr_left (fun e he => h e (edges_in_range (Created.wf hv) n hn e (Or.inr he)))
    rwa [h1, h2] at hb
  · intro n hn hng
    have := ha.nodes n hn hng
    unfold NodeOk at this ⊢
    rwa [nodeFlow_agree hv h n hn] at this
  · intro a hm
    rw [← aggFlow_agree hv h]; exact ha.aggs a hm
  · rw [← flowAt_agree hv h]; exact ha.factors
  · intro k v hk hact
    rw [← vsUse_agree hv h]; exact ha.vs k v hk hact
  · obtain ⟨on, ho⟩ := ha.choice
    refine ⟨on, ho.count, ?_, ?_⟩
    · rw [← flowAt_agree hv h]; exact ho.idle
    · rw [← flowAt_agree hv h]; exact ho.busy

theorem Best.agree {M : Model} {st : StepState} {f g : Nat → ℚ} (hv : M.Valid)
    (h : ∀ e < M.net.edges.length, f e = g e) (ha : Best M st f) : Best M st g := by
  refine ⟨AllowedChoice.agree hv h ha.1, fun cost hc k h1 h2 => ?_⟩
  rw [← totalCost_agree hv h]
  exact ha.2 cost hc k h1 h2

theorem mapM_read (values : List ℚ) : ∀ (cols : List Nat) (f : List ℚ),
    cols.mapM (fun c => values[c]?) = some f ↔ Read cols values f := by
  intro cols
  induction cols with
  | nil =>
    intro f
    simp only [List.mapM_nil, Read, List.length_nil, List.length_eq_zero_iff]
    constructor
    · intro h; cases h; exact ⟨rfl, fun e c h => by simp at h⟩
    · rintro ⟨rfl, _⟩; rfl
  | cons c cols ih =>
    intro f
    constructor
    · intro h
      rw [List.mapM_cons] at h
      cases hv : values[c]? with
      | none => simp [hv] at h
      | some v =>
        cases hm : cols.mapM (fun c => values[c]?) with
        | none => simp [hv, hm] at h
        | some f' =>
          simp only [hv, hm, Option.bind_eq_bind, Option.bind_some, Option.pure_def, Option.some.injEq] at h
          subst h
          obtain ⟨h1, h2⟩ := (ih f').1 hm
          refine ⟨by simp [h1], fun e k hk => ?_⟩
          cases e with
          | zero =>
            simp only [List.getElem?_cons_zero, Option.some.injEq] at hk
            subst hk
            exact ⟨v, hv, rfl⟩
          | succ e => simpa using h2 e k (by simpa using hk)
    · rintro ⟨h1, h2⟩
      cases f with
      | nil => simp at h1
      | cons v f =>
        obtain ⟨w, hw, hv⟩ := h2 0 c rfl
        simp only [List.getElem?_cons_zero, Option.some.injEq] at hv
        subst hv
        have := (ih f).2 ⟨by simpa using h1, fun e k hk => by simpa using h2 (e + 1) k (by simpa using hk)⟩
        rw [List.mapM_cons, hw, this]
        rfl

theorem saved_flows (cols : List Nat) (values f : List ℚ) : saved cols values = .flows f ↔ Read cols values f := by
  rw [← mapM_read]
  unfold saved
  cases cols.mapM (fun c => values[c]?) with
  | none => simp
  | some g => simp

theorem Read.flow {s : Built} {values f : List ℚ} (h : Read s.cols values f) (e : Nat) (he : e < s.cols.length) :
    s.flow (point values) e = point f e := by
  obtain ⟨v, h1, h2⟩ := h.2 e _ (List.getElem?_eq_getElem he)
  unfold Built.flow point
  rw [List.getD_eq_getElem _ _ he]
  rw [List.getD_eq_getElem?_getD, h1, List.getD_eq_getElem?_getD, h2]

theorem highsCall_fine (r : HighsReturn) : highsCall r = some (some ()) ↔ r.Fine := by
  cases r <;> simp [highsCall, HighsReturn.Fine]

theorem highsRun_ok (r : HighsReturn × HighsStatus) : highsRun r.1 r.2 = .ok ↔ RunOptimal r := by
  obtain ⟨a, b⟩ := r
  cases a <;> cases b <;> simp [highsRun, highsCall, RunOptimal, HighsReturn.Fine]

theorem highsRun_unknown (r : HighsReturn × HighsStatus) : highsRun r.1 r.2 = .model true ↔ RunUnknown r := by
  obtain ⟨a, b⟩ := r
  cases a <;> cases b <;> simp [highsRun, highsCall, RunUnknown, HighsReturn.Fine]

theorem highsSave_flows (cols : List Nat) (a : HighsAnswers) (f : List ℚ) :
    highsSave cols a = .flows f ↔ a.solution.Fine ∧ Read cols a.values f := by
  rw [← saved_flows, ← highsCall_fine]
  unfold highsSave
  cases highsCall a.solution with
  | none => simp
  | some o => cases o <;> simp

theorem highsFailed_flows (a : HighsAnswers) (f : List ℚ) : highsFailed a ≠ .flows f := by
  unfold highsFailed
  cases highsCall a.write <;> simp

theorem cut_near (q : ℚ) : |(if |q| < 1 / 10000000000 then 0 else q) - q| < 1 / 10000000000 := by
  by_cases h : |q| < 1 / 10000000000
  · rw [if_pos h, zero_sub, abs_neg]; exact h
  · rw [if_neg h, sub_self, abs_zero]; norm_num

/-! ## The program of Microlp -/

theorem update_max {M : Model} {s u : Built} {st : StepState} {b : LpBuilder} (hr : RowIds s b.rows.length) (hk : KeepInv b s.lp)
    (h : update M s st = .ok u) : u.lp.f64Max = s.lp.f64Max := by
  have h1 := (update_parts hr hk h).1
  rw [h1]

theorem applyAll_max : ∀ (l : List (Nat × Nat × ℚ)) (lp lp' : Lp), lp.applyAll l = some lp' → lp'.f64Max = lp.f64Max := by
  intro l
  induction l with
  | nil => intro lp lp' h; simp only [Lp.applyAll, Option.some.injEq] at h; rw [h]
  | cons t l ih =>
    obtain ⟨r, c, v⟩ := t
    intro lp lp' h
    simp only [Lp.applyAll] at h
    cases ha : lp.applyCoefficient r c v with
    | none => simp [ha] at h
    | some lp1 =>
      simp only [ha] at h
      rw [ih _ _ h]
      unfold Lp.applyCoefficient at ha
      repeat' split at ha
      all_goals first | (cases ha; done) | skip
      simp only [Option.some.injEq] at ha
      rw [← ha]

theorem step_max {M : Model} {s s' : Built} {st : StepState} {b : LpBuilder} (hr : RowIds s b.rows.length) (hk : KeepInv b s.lp)
    (h : step M s st = .ok s') : s'.lp.f64Max = s.lp.f64Max := by
  unfold step at h
  cases hu : update M s st with
  | error e => simp [hu] at h
  | ok u =>
    simp only [hu] at h
    cases hp : u.lp.applyUpdatedCoefficients with
    | none => simp [hp] at h
    | some lp2 =>
      simp only [hp, Except.ok.injEq] at h
      subst h
      unfold Lp.applyUpdatedCoefficients at hp
      obtain ⟨lp3, h7, rfl⟩ := Option.map_eq_some_iff.1 hp
      show lp3.f64Max = _
      rw [applyAll_max _ _ _ h7, update_max hr hk hu]

theorem reach_max {M : Model} {big negBig : ℚ} {sets : List (List Nat)} {s : Built} (h : Reach M big negBig sets s) :
    s.lp.f64Max = big := by
  induction h with
  | create s h =>
    obtain ⟨m, b, bins, h1, h2⟩ := create_general h
    rw [h1]
    exact h2.f64Max
  | step s s' st hr hs ih =>
    obtain ⟨m, b, bins, h1, h2⟩ := reach_general hr
    rw [step_max h1.ids h2 hs, ih]

theorem makeProblem_means {M : Model} {big negBig : ℚ} {sets : List (List Nat)} {s : Built} (h : Reach M big negBig sets s) :
    (∀ p, makeProblem s.lp = some p → (∀ x, s.lp.Feasible x ↔ p.Feasible x ∧
      ∀ i : Nat, s.lp.rowUpper[i]? = some big → value (s.lp.entries i) x ≤ big) ∧ ∀ x, p.objective x = s.lp.objective x) ∧
    (makeProblem s.lp = none → ∀ x, ¬ s.lp.Feasible x) := by
  obtain ⟨m, b, bins, g, k⟩ := reach_general h
  have hmax := reach_max h
  have hl : s.lp.colLower.length = m.colToEdges.length + sets.length := by rw [k.colLower, g.colLower]; simp
  have hu : s.lp.colUpper.length = s.lp.colLower.length := by rw [hl, k.colUpper, g.colUpper]; simp
  have ht : s.lp.colType.length = s.lp.colLower.length := by rw [hl, k.colType, g.colType]; simp
  have ho : s.lp.colObj.length = s.lp.colLower.length := by rw [hl, k.colObj, g.colObj]
  have hh := b.build_has
  have hb : b.build.rowLower.length = b.rows.length + b.fixedRows.length := (LpInv.build b (fun _ => False)).lenLower
  have hb' : b.build.rowUpper.length = b.rows.length + b.fixedRows.length := (LpInv.build b (fun _ => False)).lenUpper
  have hs : s.lp.rowStarts.length = s.lp.rowLower.length + 1 := by
    rw [k.starts, Has.starts_length hh, k.lenLower, hb]; simp
  have hr : s.lp.rowUpper.length = s.lp.rowLower.length := by rw [k.lenUpper, k.lenLower, hb, hb']
  have hint : ∀ i : Nat, s.lp.colType[i]? = some .integer → s.lp.colLower[i]? = some 0 ∧ s.lp.colUpper[i]? = some 1 := by
    intro i hi
    rw [k.colType, g.colType] at hi
    rw [k.colLower, g.colLower, k.colUpper, g.colUpper]
    rw [List.getElem?_append] at hi ⊢
    simp only [List.length_replicate, List.getElem?_replicate] at hi ⊢
    by_cases h1 : i < m.colToEdges.length
    · rw [if_pos h1, if_pos h1] at hi; cases hi
    · rw [if_neg h1] at hi
      by_cases h2 : i - m.colToEdges.length < sets.length
      · rw [if_neg h1, if_pos h2, if_pos (by omega)]; exact ⟨rfl, rfl⟩
      · rw [if_neg h2] at hi; cases hi
  have hvars := microVars_get _ _ _ _ hint hu ho ht
  have hspec := fun x => microRows_spec s.lp.f64Max s.lp.columns s.lp.elements x s.lp.rowLower s.lp.rowUpper s.lp.rowStarts hr hs
  simp only [slice_entries, hmax] at hspec
  refine ⟨fun p hp => ⟨fun x => ?_, fun x => ?_⟩, fun hn x hx => ?_⟩
  · unfold makeProblem at hp
    rw [hmax] at hp
    cases hm : microRows big s.lp.columns s.lp.elements s.lp.rowLower s.lp.rowUpper s.lp.rowStarts with
    | none => simp [hm] at hp
    | some cs =>
      simp only [hm, Option.some.injEq] at hp
      subst hp
      have hrows := (hspec x).1 cs hm
      have hcols : s.lp.ColsHold x ↔ ∀ (i : Nat) (v : Var), (microVars s.lp.colLower s.lp.colUpper s.lp.colObj s.lp.colType)[i]? = some v →
          v.lower ≤ x i ∧ x i ≤ v.upper ∧ (v.integer = true → ∃ n : Int, x i = n) := by
        rw [hvars]
        constructor
        · intro h i v hv
          rw [List.getElem?_map, Option.map_eq_some_iff] at hv
          obtain ⟨q, hq, rfl⟩ := hv
          rw [List.getElem?_zip_eq_some, List.getElem?_zip_eq_some, List.getElem?_zip_eq_some] at hq
          obtain ⟨a1, a2, a3⟩ := h i _ _ hq.1.1 hq.1.2
          refine ⟨a1, a2, fun hi => a3 ?_⟩
          rw [hq.2.2, of_decide_eq_true hi]
        · intro h c lo hi h1 h2
          have hc : c < s.lp.colLower.length := (List.getElem?_eq_some_iff.1 h1).1
          have h3 := List.getElem?_eq_getElem (l := s.lp.colObj) (i := c) (by omega)
          have h4 := List.getElem?_eq_getElem (l := s.lp.colType) (i := c) (by omega)
          have h5 := h c ⟨s.lp.colObj[c]'(by omega), lo, hi, decide (s.lp.colType[c]'(by omega) = .integer)⟩ (by
            rw [List.getElem?_map, Option.map_eq_some_iff]
            refine ⟨((lo, hi), (s.lp.colObj[c]'(by omega), s.lp.colType[c]'(by omega))), ?_, rfl⟩
            rw [List.getElem?_zip_eq_some, List.getElem?_zip_eq_some, List.getElem?_zip_eq_some]
            exact ⟨⟨h1, h2⟩, h3, h4⟩)
          refine ⟨h5.1, h5.2.1, fun ht => h5.2.2 ?_⟩
          rw [h4, Option.some.injEq] at ht
          exact decide_eq_true ht
      constructor
      · rintro ⟨h1, h2⟩
        have h3 := hrows.2 h1
        exact ⟨⟨h3.1, hcols.1 h2⟩, h3.2⟩
      · rintro ⟨⟨h1, h2⟩, h3⟩
        exact ⟨hrows.1 ⟨h1, h3⟩, hcols.2 h2⟩
  · unfold makeProblem at hp
    cases hm : microRows s.lp.f64Max s.lp.columns s.lp.elements s.lp.rowLower s.lp.rowUpper s.lp.rowStarts with
    | none => simp [hm] at hp
    | some cs =>
      simp only [hm, Option.some.injEq] at hp
      subst hp
      have e := zip_objs _ _ _ _ hu ho ht
      rw [← hvars] at e
      unfold Problem.objective Lp.objective
      have e2 : s.lp.colObj.zipIdx = ((microVars s.lp.colLower s.lp.colUpper s.lp.colObj s.lp.colType).map Var.obj).zipIdx := by rw [e]
      rw [e2, List.zipIdx_map, List.map_map]
      rfl
  · unfold makeProblem at hn
    rw [hmax] at hn
    cases hm : microRows big s.lp.columns s.lp.elements s.lp.rowLower s.lp.rowUpper s.lp.rowStarts with
    | some cs => simp [hm] at hn
    | none =>
      obtain ⟨i, lo, hi, h1, h2, h3⟩ := (hspec x).2 hm
      obtain ⟨h4, h5⟩ := hx.1 i lo hi h1 h2
      linarith

end Verif.Backends
