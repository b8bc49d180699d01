import Verif.Model.V1Model
import Verif.Props.Timestep
import Verif.Props.V1Scenario

/-!
# C104: whole old models
-/

namespace Verif.V1Model

open Verif.Calendar (DateTime)
open Verif.Time (Timestep)
open Verif.Scenario (simulated cart Index.schemaIndices)

/-! ## Specification -/

/-- The steps start at the dates from `start` on at a distance of `d` days up to `stop`, in this order, and last until the next. -/
def EveryDays (start stop : DateTime) (d : Nat) (steps : List Timestep) : Prop :=
  ∀ (i : Nat) (t : Timestep), steps[i]? = some t ↔ t.date.Valid ∧ t.date.instant = start.instant + i * (d * 86400000000000) ∧
    t.date.instant ≤ stop.instant ∧ t.index = i ∧ t.duration = d * 86400000000000

/-- The scenarios are those that the old model simulates; without groups there is one. -/
def Simulates (o : Old) (s : Scenario.Domain) : Prop :=
  match o.scenarios with
  | none => s.indices.length = 1
  | some os => s.indices.map Index.schemaIndices = (cart (os.map (·.size))).filter (simulated os)

/-- Groups as old models can have them: with different names and slices within the group, which do not consist of an end alone (C92). -/
def Groups (os : List Scenario.Old) : Prop := os ≠ [] ∧ (os.map Scenario.Old.name).Nodup ∧ ∀ o ∈ os, o.Fits ∧ o.notEndOnly = true

/-! ## What a conversion consists of -/

theorem convert_iff (o : Old) (m : New) (reports : List Report) : convert o = some (m, reports) ↔
    ∃ step s errors n, convStep o.step = some step ∧ Scenario.convScenarios o.scenarios o.combinations = some (s, errors) ∧
      V1.convert o.network = some n ∧ m = ⟨convMetadata o.metadata, ⟨o.start, o.stop, step⟩, s, n⟩ ∧
      reports = errors.map .scenarios ++ n.errors.map .network := by
  unfold convert convTimes
  constructor
  · intro h
    cases h1 : convStep o.step with
    | none => simp [h1] at h
    | some step =>
      cases h2 : Scenario.convScenarios o.scenarios o.combinations with
      | none => simp [h1, h2] at h
      | some p =>
        obtain ⟨s, errors⟩ := p
        cases h3 : V1.convert o.network with
        | none => simp [h1, h2, h3] at h
        | some n =>
          simp only [h1, h2, h3, Option.some.injEq, Prod.mk.injEq] at h
          exact ⟨step, s, errors, n, rfl, rfl, rfl, h.1.symm, h.2.symm⟩
  · rintro ⟨step, s, errors, n, h1, h2, h3, rfl, rfl⟩
    simp only [h1, h2, h3]

/-! ## Theorems -/

/-- **C104 (metadata and dates).** A converted model has the title, description and minimum version of the old one, and its first and last date. -/
theorem C104_kept {o : Old} {m : New} {reports : List Report} (h : convert o = some (m, reports)) :
    (∀ t, o.metadata.title = some t → m.metadata.title = t) ∧ m.metadata.description = o.metadata.description ∧
    m.metadata.minimumVersion = o.metadata.minimumVersion ∧ m.time.start = o.start ∧ m.time.stop = o.stop := by
  obtain ⟨step, s, errors, n, -, -, -, rfl, -⟩ := (convert_iff _ _ _).1 h
  exact ⟨fun t ht => by simp [convMetadata, ht], rfl, rfl, rfl, rfl⟩

/-- What the steps of a converted model are, if it has any. -/
theorem domain_ok {parse : Parse} {m : New} {steps : List Timestep} {s : Scenario.Domain} (h : m.domain parse = .ok (steps, s)) :
    ∃ d, m.time.step.duration parse = some d ∧ Time.build m.time.start m.time.stop d = .ok steps ∧
      (m.scenarios = none → s = ⟨[Scenario.Index.default], [Scenario.Group.default], [none]⟩) ∧ ∀ c, m.scenarios = some c → c.build = .ok s := by
  unfold New.domain at h
  cases hs : m.scenarios with
  | none =>
    simp only [hs] at h
    cases h1 : m.time.step.duration parse with
    | none => simp [h1] at h
    | some d =>
      cases h2 : Time.build m.time.start m.time.stop d with
      | error e => simp [h1, h2] at h
      | ok L =>
        simp only [h1, h2, Scenario.DomainBuilder.build, Except.ok.injEq, Prod.mk.injEq] at h
        exact ⟨d, rfl, by rw [h2, h.1], fun _ => h.2.symm, fun c hc => by cases hc⟩
  | some c =>
    simp only [hs] at h
    cases h0 : Scenario.addGroups c.groups ⟨[], none⟩ with
    | error e => simp [h0] at h
    | ok b =>
      simp only [h0] at h
      cases h1 : m.time.step.duration parse with
      | none => simp [h1] at h
      | some d =>
        cases h2 : Time.build m.time.start m.time.stop d with
        | error e => simp [h1, h2] at h
        | ok L =>
          simp only [h1, h2] at h
          refine ⟨d, rfl, ?_, (fun hc => by cases hc), fun c' hc => ?_⟩
          · rw [h2]
            split at h
            · cases h
            · simp only [Except.ok.injEq, Prod.mk.injEq] at h
              rw [h.1]
          · obtain rfl := Option.some.inj hc
            unfold Scenario.SchemaDomain.build
            simp only [h0]
            cases h3 : c.combinations with
            | none =>
              simp only [h3] at h ⊢
              split at h
              · cases h
              · rename_i hb
                simp only [Except.ok.injEq, Prod.mk.injEq] at h
                rw [hb, h.2]
            | some cs =>
              simp only [h3] at h ⊢
              split at h
              · cases h
              · rename_i hb
                simp only [Except.ok.injEq, Prod.mk.injEq] at h
                rw [hb, h.2]

/-- **C104 (steps of days).** A model converted from one with steps of `d` days runs over the dates from the first one on at a distance of `d` days up to
the last one. -/
theorem C104_days {o : Old} {m : New} {reports : List Report} (h : convert o = some (m, reports)) (hstart : o.start.Valid) (hstop : o.stop.Valid)
    {d : Nat} (hd : o.step = .days d) {parse : Parse} {steps : List Timestep} {s : Scenario.Domain} (hm : m.domain parse = .ok (steps, s)) :
    0 < d ∧ EveryDays o.start o.stop d steps := by
  obtain ⟨step, sc, errors, n, h1, -, -, rfl, -⟩ := (convert_iff _ _ _).1 h
  rw [hd] at h1
  simp only [convStep] at h1
  split_ifs at h1 with h0
  obtain rfl := Option.some.inj h1
  have hpos : 0 < d := Nat.pos_of_ne_zero h0
  refine ⟨hpos, ?_⟩
  obtain ⟨dur, h2, h3, -⟩ := domain_ok hm
  simp only [Step.duration, Option.some.injEq] at h2
  subst h2
  have key := Time.C01_fixed_time_domain o.start o.stop hstart hstop (.days d) (d * 86400000000000) rfl (by omega)
  by_cases hle : o.start.instant ≤ o.stop.instant
  · obtain ⟨L, hL, hspec⟩ := key.2 hle
    have : L = steps := Except.ok.inj (hL.symm.trans h3)
    subst this
    intro i t
    rw [hspec i t]
    push_cast
    rfl
  · rw [key.1 (by omega)] at h3
    cases h3

/-- **C104 (frequencies).** With a text for the frequency a converted model runs over the dates that this text means: each of them the multiple of the
span after the first. -/
theorem C104_frequency {o : Old} {m : New} {reports : List Report} (h : convert o = some (m, reports)) (hstart : o.start.Valid) (hstop : o.stop.Valid)
    {text : String} (hd : o.step = .frequency text) {parse : Parse} {steps : List Timestep} {s : Scenario.Domain}
    (hm : m.domain parse = .ok (steps, s)) :
    ∃ months weeks days ns, parse text = some (false, months, weeks, days, ns) ∧ (0 < months ∨ 0 < weeks ∨ 0 < days ∨ 0 < ns) ∧
      ∀ (i : Nat) (t : Timestep), steps[i]? = some t ↔ t.date = o.start.addSpan ⟨months * i, weeks * i, days * i, ns * i⟩ ∧
        t.date.instant ≤ o.stop.instant ∧ t.index = i ∧
        t.date.instant + t.duration = (o.start.addSpan ⟨months * (i + 1), weeks * (i + 1), days * (i + 1), ns * (i + 1)⟩).instant := by
  obtain ⟨step, sc, errors, n, h1, -, -, rfl, -⟩ := (convert_iff _ _ _).1 h
  rw [hd] at h1
  obtain rfl := Option.some.inj h1
  obtain ⟨dur, h2, h3, -⟩ := domain_ok hm
  simp only [Step.duration, Option.map_eq_some_iff] at h2
  obtain ⟨⟨neg, months, weeks, days, ns⟩, hp, rfl⟩ := h2
  simp only at h3
  by_cases hbad : neg = true ∨ (months = 0 ∧ weeks = 0 ∧ days = 0 ∧ ns = 0)
  · rw [Time.C02_non_positive_rejected _ _ _ _ _ _ _ hbad] at h3
    cases h3
  · have hneg : neg = false := by cases neg <;> simp_all
    subst hneg
    have hs : 0 < months ∨ 0 < weeks ∨ 0 < days ∨ 0 < ns := by
      by_contra hc
      exact hbad (.inr (by omega))
    refine ⟨months, weeks, days, ns, hp, hs, ?_⟩
    have key := Time.C02_frequency_time_domain o.start o.stop hstart hstop months weeks days ns hs
    by_cases hle : o.start.instant ≤ o.stop.instant
    · obtain ⟨L, hL, hspec⟩ := key.2 hle
      have : L = steps := Except.ok.inj (hL.symm.trans h3)
      subst this
      exact hspec
    · rw [key.1 (by omega)] at h3
      cases h3

theorem none_scenarios : Scenario.convScenarios none none = some (none, []) := rfl

/-- **C104 (runs).** An old model with steps of at least a day, dates in order, and no scenarios or groups with different names and proper slices, whose
network can be converted, becomes a model with the dates and scenarios of the old one, and only problems of the network are reported. -/
theorem C104_run (o : Old) (hstart : o.start.Valid) (hstop : o.stop.Valid) (hle : o.start.instant ≤ o.stop.instant) {d : Nat} (hd : o.step = .days d)
    (hpos : 0 < d) (hc : o.combinations = none) (hg : ∀ os, o.scenarios = some os → Groups os) {n : V1.Converted}
    (hn : V1.convert o.network = some n) (parse : Parse) :
    ∃ m steps s, convert o = some (m, n.errors.map .network) ∧ m.network = n ∧ m.domain parse = .ok (steps, s) ∧ EveryDays o.start o.stop d steps ∧
      Simulates o s := by
  have key := Time.C01_fixed_time_domain o.start o.stop hstart hstop (.days d) (d * 86400000000000) rfl (by omega)
  obtain ⟨L, hL, -⟩ := key.2 hle
  have hstep : convStep o.step = some (.days d) := by rw [hd]; simp only [convStep, if_neg (by omega : ¬ d = 0)]
  cases hs : o.scenarios with
  | none =>
    have hcv : convert o = some (⟨convMetadata o.metadata, ⟨o.start, o.stop, .days d⟩, none, n⟩, n.errors.map .network) :=
      (convert_iff _ _ _).2 ⟨_, none, [], n, hstep, by rw [hs, hc]; rfl, hn, rfl, rfl⟩
    have hm : (⟨convMetadata o.metadata, ⟨o.start, o.stop, .days d⟩, none, n⟩ : New).domain parse =
        .ok (L, ⟨[Scenario.Index.default], [Scenario.Group.default], [none]⟩) := by
      simp only [New.domain, Step.duration, hL, Scenario.DomainBuilder.build]
    refine ⟨_, _, _, hcv, rfl, hm, (C104_days hcv hstart hstop hd hm).2, ?_⟩
    unfold Simulates
    rw [hs]
    rfl
  | some os =>
    obtain ⟨hne, hnd, hf⟩ := hg os hs
    obtain ⟨c, sd, h1, h2⟩ := Scenario.C92_accepted os hne (fun o ho => (hf o ho).1) hnd
    have hcv : convert o = some (⟨convMetadata o.metadata, ⟨o.start, o.stop, .days d⟩, some c, n⟩, n.errors.map .network) :=
      (convert_iff _ _ _).2 ⟨_, some c, [], n, hstep, by rw [hs, hc]; exact h1, hn, rfl, rfl⟩
    have hm : (⟨convMetadata o.metadata, ⟨o.start, o.stop, .days d⟩, some c, n⟩ : New).domain parse = .ok (L, sd) := by
      unfold Scenario.SchemaDomain.build at h2
      cases h0 : Scenario.addGroups c.groups ⟨[], none⟩ with
      | error e => simp [h0] at h2
      | ok b =>
        simp only [h0] at h2
        simp only [New.domain, h0, Step.duration, hL]
        cases h3 : c.combinations with
        | none => simp only [h3] at h2 ⊢; rw [h2]
        | some cs => simp only [h3] at h2 ⊢; rw [h2]
    refine ⟨_, _, _, hcv, rfl, hm, (C104_days hcv hstart hstop hd hm).2, ?_⟩
    unfold Simulates
    rw [hs]
    exact (Scenario.C92_members_partial os hne (fun o ho => (hf o ho).2) c [] h1 sd h2).2.2

/-- A model without a network. -/
def Old.bare (o : Old) : Old := { o with network := ⟨[], [], [], []⟩ }

/-- A model without scenarios. -/
def Old.plain (o : Old) : Old := { o with scenarios := none, combinations := none }

theorem bare_network : V1.convert ⟨[], [], [], []⟩ = some ⟨[], [], [], [], [], []⟩ := rfl

/-- **C104 (parts).** Scenarios and network are converted independently of each other: each is what it would be without the other, and what is reported is
what would be reported of the scenarios alone followed by what would be reported of the network alone. -/
theorem C104_parts {o : Old} {m : New} {reports : List Report} (h : convert o = some (m, reports)) :
    ∃ m₁ m₂ r₁ r₂, convert o.bare = some (m₁, r₁) ∧ convert o.plain = some (m₂, r₂) ∧ reports = r₁ ++ r₂ ∧
      m.scenarios = m₁.scenarios ∧ m.network = m₂.network ∧ m.time = m₁.time ∧ m.time = m₂.time ∧ m.metadata = m₁.metadata ∧ m.metadata = m₂.metadata := by
  obtain ⟨step, s, errors, n, h1, h2, h3, rfl, rfl⟩ := (convert_iff _ _ _).1 h
  refine ⟨_, _, _, _, (convert_iff o.bare _ _).2 ⟨step, s, errors, _, h1, h2, bare_network, rfl, rfl⟩,
    (convert_iff o.plain _ _).2 ⟨step, none, [], n, h1, rfl, h3, rfl, rfl⟩, ?_, rfl, rfl, rfl, rfl, rfl, rfl⟩
  simp

/-- **C104 (scenarios are not lost silently).** If the converted model has no groups though the old one had groups or combinations, a problem of the
scenarios is reported. -/
theorem C104_reported {o : Old} {m : New} {reports : List Report} (h : convert o = some (m, reports)) (hm : m.scenarios = none)
    (ho : o.scenarios ≠ none ∨ o.combinations ≠ none) : ∃ e, Report.scenarios e ∈ reports := by
  obtain ⟨step, s, errors, n, -, h2, -, rfl, rfl⟩ := (convert_iff _ _ _).1 h
  rcases ((Scenario.C92_reported _ _).2 _ _ h2).1 hm with ⟨h3, h4⟩ | h3
  · rcases ho with ho | ho
    · exact absurd h3 ho
    · exact absurd h4 ho
  · obtain ⟨e, he⟩ := List.exists_mem_of_ne_nil _ h3
    exact ⟨e, List.mem_append_left _ (List.mem_map_of_mem he)⟩

/-- **C104 (the conversion succeeds).** Missing: steps of zero days (`Cases.C104_zero_days_refuted`), slices with a step of zero and networks whose conversion
fails (C89). -/
theorem C104_converts_partial (o : Old) (h1 : o.step ≠ .days 0)
    (h2 : ∀ os, o.scenarios = some os → ∀ g ∈ os, ∀ a b, g.slice ≠ some [a, b, some 0]) (h3 : V1.convert o.network ≠ none) :
    ∃ m reports, convert o = some (m, reports) := by
  obtain ⟨n, hn⟩ := Option.ne_none_iff_exists'.1 h3
  have hs : Scenario.convScenarios o.scenarios o.combinations ≠ none := by
    intro hc
    obtain ⟨os, ho, g, hg, a, b, hab⟩ := (Scenario.C92_reported _ _).1 hc
    exact h2 os ho g hg a b hab
  obtain ⟨⟨s, errors⟩, hs⟩ := Option.ne_none_iff_exists'.1 hs
  have : ∃ step, convStep o.step = some step := by
    cases ho : o.step with
    | days d =>
      have : d ≠ 0 := fun hd => h1 (by rw [ho, hd])
      exact ⟨.days d, by simp only [convStep, if_neg this]⟩
    | frequency t => exact ⟨_, rfl⟩
  obtain ⟨step, hstep⟩ := this
  exact ⟨_, _, (convert_iff _ _ _).2 ⟨step, s, errors, n, hstep, hs, hn, rfl, rfl⟩⟩

end Verif.V1Model
