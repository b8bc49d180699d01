import Verif.Spec.Stepping

namespace Verif.Run

variable {T I S R E : Type}

theorem Advanced.unique {net : Network T I S R E} {t : T} {i : I} {s a b : S} (ha : Advanced net t i s a) (hb : Advanced net t i s b) : a = b := by
  obtain ⟨s₁, s₂, h1, h2, h3⟩ := ha
  obtain ⟨r₁, r₂, g1, g2, g3⟩ := hb
  rw [h1] at g1; cases g1
  rw [h2] at g2; cases g2
  rw [h3] at g3; cases g3
  rfl

theorem Alone.unique {net : Network T I S R E} {i : I} {ts : List T} {s a b : S} (ha : Alone net i ts s a) (hb : Alone net i ts s b) : a = b := by
  induction ha with
  | nil s => cases hb; rfl
  | cons h1 _ ih =>
    cases hb with
    | cons g1 g2 => rw [Advanced.unique g1 h1] at g2; exact ih g2

theorem scenarioStep_iff {net : Network T I S R E} {t : T} {i : I} {s s' : S} :
    scenarioStep net t i s = (s', none) ↔ Advanced net t i s s' := by
  unfold scenarioStep Advanced andThen
  rcases h1 : net.compute t i s with ⟨s₁, _ | e⟩
  · simp only
    rcases h2 : net.solve t i s₁ with ⟨s₂, _ | e⟩
    · simp only
      constructor
      · intro h; exact ⟨s₁, s₂, rfl, h2, h⟩
      · rintro ⟨a, b, ha, hb, hc⟩
        cases ha
        rw [h2] at hb; cases hb
        exact hc
    · simp only
      constructor
      · intro h; cases h
      · rintro ⟨a, b, ha, hb, hc⟩
        cases ha
        rw [h2] at hb; cases hb
  · simp only
    constructor
    · intro h; cases h
    · rintro ⟨a, b, ha, _, _⟩; cases ha

theorem AllAdvanced.unique {net : Network T I S R E} {t : T} {is : List I} {ss a b : List S} (ha : AllAdvanced net t is ss a)
    (hb : AllAdvanced net t is ss b) : a = b := by
  induction ha generalizing b with
  | nil => cases hb; rfl
  | cons h1 _ ih =>
    cases hb with
    | cons g1 g2 => rw [Advanced.unique g1 h1, ih g2]

theorem AllAdvanced.length {net : Network T I S R E} {t : T} {is : List I} {ss ss' : List S} (h : AllAdvanced net t is ss ss') :
    is.length = ss.length ∧ ss'.length = ss.length := by
  induction h with
  | nil => exact ⟨rfl, rfl⟩
  | cons _ _ ih => simp [ih.1, ih.2]

theorem stepAll_iff {net : Network T I S R E} {t : T} {is : List I} {ss ss' : List S} (hl : is.length = ss.length) :
    stepAll net t is ss = (ss', none) ↔ AllAdvanced net t is ss ss' := by
  induction is generalizing ss ss' with
  | nil =>
    cases ss with
    | nil =>
      constructor
      · intro h; simp only [stepAll, Prod.mk.injEq] at h; rw [← h.1]; exact .nil
      · intro h; cases h; rfl
    | cons _ _ => cases hl
  | cons i is ih =>
    cases ss with
    | nil => cases hl
    | cons s ss =>
      have hl' : is.length = ss.length := by simpa using hl
      rcases h1 : scenarioStep net t i s with ⟨s₁, _ | e⟩
      · rcases h2 : stepAll net t is ss with ⟨ss₁, e⟩
        simp only [stepAll, h1, h2]
        constructor
        · intro h
          cases h
          exact .cons (scenarioStep_iff.mp h1) ((ih hl').mp h2)
        · intro h
          cases h with
          | cons g1 g2 =>
            rw [scenarioStep_iff.mpr g1] at h1
            cases h1
            rw [(ih hl').mpr g2] at h2
            cases h2
            rfl
      · simp only [stepAll, h1]
        constructor
        · intro h; cases h
        · intro h
          cases h with
          | cons g1 _ => rw [scenarioStep_iff.mpr g1] at h1; cases h1

theorem stepAll_length (net : Network T I S R E) (t : T) (is : List I) (ss : List S) : (stepAll net t is ss).1.length = ss.length := by
  induction is generalizing ss with
  | nil => cases ss <;> rfl
  | cons i is ih =>
    cases ss with
    | nil => rfl
    | cons s ss =>
      rcases h1 : scenarioStep net t i s with ⟨s₁, _ | e⟩
      · simp only [stepAll, h1, List.length_cons, ih ss]
      · simp only [stepAll, h1, List.length_cons]

/-- A step that succeeds. -/
theorem step_iff {m : Model T I S R E} {st st' : State S R} (hl : m.scenarios.length = st.states.length) :
    step m st = (st', none) ↔ ∃ t, m.timesteps[st.current]? = some t ∧ AllAdvanced m.network t m.scenarios st.states st'.states ∧
      m.network.save t m.scenarios st'.states st.recorders = (st'.recorders, none) ∧ st'.current = st.current + 1 := by
  unfold step
  rcases ht : m.timesteps[st.current]? with _ | t
  · simp
  · simp only [Option.some.injEq, exists_eq_left']
    rcases hs : stepAll m.network t m.scenarios st.states with ⟨ss, _ | e⟩
    · simp only
      have ha := (stepAll_iff hl).mp hs
      rcases hr : m.network.save t m.scenarios ss st.recorders with ⟨r, _ | e⟩
      · simp only
        constructor
        · intro h
          cases h
          exact ⟨ha, hr, rfl⟩
        · rintro ⟨h1, h2, h3⟩
          have := AllAdvanced.unique h1 ha
          rw [this, hr] at h2
          cases h2
          rcases st' with ⟨c, s, r⟩
          simp only at this h3
          rw [this, h3]
      · simp only
        constructor
        · intro h; cases h
        · rintro ⟨h1, h2, _⟩
          rw [AllAdvanced.unique h1 ha, hr] at h2
          cases h2
    · simp only
      constructor
      · intro h; cases h
      · rintro ⟨h1, _, _⟩
        rw [(stepAll_iff hl).mpr h1] at hs
        cases hs

theorem step_length {m : Model T I S R E} {st st' : State S R} {e : Option (StepError T E)} (h : step m st = (st', e)) :
    st'.states.length = st.states.length := by
  unfold step at h
  rcases ht : m.timesteps[st.current]? with _ | t
  · rw [ht] at h; cases h; rfl
  · have hl := stepAll_length m.network t m.scenarios st.states
    rcases hs : stepAll m.network t m.scenarios st.states with ⟨ss, _ | e⟩
    · rw [hs] at hl
      simp only [ht, hs] at h
      rcases hr : m.network.save t m.scenarios ss st.recorders with ⟨r, _ | e⟩
      · simp only [hr] at h; cases h; exact hl
      · simp only [hr] at h; cases h; exact hl
    · rw [hs] at hl
      simp only [ht, hs] at h
      cases h; exact hl

theorem Executes.unique {m : Model T I S R E} {ts : List T} {x a b : List S × R} (ha : Executes m ts x a) (hb : Executes m ts x b) : a = b := by
  induction ha with
  | nil => cases hb; rfl
  | cons h1 h2 _ ih =>
    cases hb with
    | cons g1 g2 g3 =>
      rw [AllAdvanced.unique g1 h1, h2] at g2
      cases g2
      rw [AllAdvanced.unique g1 h1] at g3
      exact ih g3

theorem Executes.length {m : Model T I S R E} {ts : List T} {x y : List S × R} (h : Executes m ts x y) : y.1.length = x.1.length := by
  induction h with
  | nil => rfl
  | cons h1 _ _ ih => rw [ih]; exact h1.length.2

theorem Executes.append {m : Model T I S R E} {ts us : List T} {x y z : List S × R} (h : Executes m ts x y) (g : Executes m us y z) :
    Executes m (ts ++ us) x z := by
  induction h with
  | nil => exact g
  | cons h1 h2 _ ih => exact .cons h1 h2 (ih g)

end Verif.Run
