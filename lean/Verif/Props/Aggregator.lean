import Verif.Lemmas.Aggregator

/-!
# C41, C42, C43: reporting periods
-/

namespace Verif.Agg

open Verif.Calendar Verif.Time

/-! ## C41 -/

/-- **C41** Splitting a value over months or years ends, and the pieces follow each other without gap or overlap from
the start to the end of the value; each carries the value, lies in one period, and no two lie in the same period. -/
theorem C41_split (f : Frequency) (hf : Civil f = true) (v : PeriodValue) (hv : v.start.Valid) (hd : 0 ≤ v.duration) :
    ∃ pieces, split f v = some pieces ∧ IsSplit f v pieces :=
  split_isSplit hf hv hd

theorem not_shorter {f : Frequency} {a b : Int} {p q : PeriodValue} {ps qs : List PeriodValue} (hs : p.start = q.start)
    (hqi : q.start.instant = a) (hpd : 0 < p.duration) (hpt : Tiles (a + p.duration) b ps) (hqt : Tiles (a + q.duration) b qs)
    (hw : Within f q) (hne : ∀ r ∈ ps, ¬ SamePeriod f p.start r.start) : ¬ p.duration < q.duration := by
  intro hlt
  cases ps with
  | nil =>
    have h1 : a + p.duration = b := hpt
    have h2 := Tiles.le hqt
    omega
  | cons r rs =>
    apply hne r List.mem_cons_self
    rw [hs]
    have h1 : r.start.instant = a + p.duration := hpt.2.1
    apply hw r.start hpt.1
    · omega
    · unfold PeriodValue.finish
      omega

/-- **C41** The split is the only list of pieces with these properties. -/
theorem C41_unique (f : Frequency) (v : PeriodValue) (xs ys : List PeriodValue) (hx : IsSplit f v xs) (hy : IsSplit f v ys) : xs = ys := by
  unfold IsSplit at hx hy
  generalize v.start.instant = a at hx hy
  induction xs generalizing a ys with
  | nil =>
    cases ys with
    | nil => rfl
    | cons q qs =>
      have h1 : a = v.finish := hx.1
      have := Tiles.le hy.1.2.2.2
      have := hy.1.2.2.1
      omega
  | cons p ps ih =>
    cases ys with
    | nil =>
      have h1 : a = v.finish := hy.1
      have := Tiles.le hx.1.2.2.2
      have := hx.1.2.2.1
      omega
    | cons q qs =>
      obtain ⟨⟨hpv, hpi, hpd, hpt⟩, hpa, hpp⟩ := hx
      obtain ⟨⟨hqv, hqi, hqd, hqt⟩, hqa, hqp⟩ := hy
      have hs : p.start = q.start := instant_inj hpv hqv (by omega)
      have h1 := not_shorter hs hqi hpd hpt hqt (hqa q List.mem_cons_self).2 (fun r hr => List.rel_of_pairwise_cons hpp hr)
      have h2 := not_shorter hs.symm hpi hqd hqt hpt (hpa p List.mem_cons_self).2 (fun r hr => List.rel_of_pairwise_cons hqp hr)
      have hd : p.duration = q.duration := by omega
      have hval : p.value = q.value := by rw [(hpa p List.mem_cons_self).1, (hqa q List.mem_cons_self).1]
      have hpq : p = q := by
        cases p; cases q
        simp only at hs hd hval
        subst hs; subst hd; subst hval
        rfl
      subst hpq
      congr 1
      exact ih qs (a + p.duration) ⟨hpt, fun r hr => hpa r (List.mem_cons_of_mem _ hr), List.Pairwise.of_cons hpp⟩
        ⟨hqt, fun r hr => hqa r (List.mem_cons_of_mem _ hr), List.Pairwise.of_cons hqp⟩

/-- Ten days from 27 January at noon. -/
def acrossJanuary : PeriodValue := ⟨⟨⟨2023, 1, 27⟩, 43200000000000⟩, 10 * nsPerDay, 3⟩

example : acrossJanuary.start.Valid ∧ 0 ≤ acrossJanuary.duration ∧
    split .monthly acrossJanuary = some [⟨⟨⟨2023, 1, 27⟩, 43200000000000⟩, 388800000000000, 3⟩, ⟨⟨⟨2023, 2, 1⟩, 0⟩, 475200000000000, 3⟩] := by
  decide +kernel

/-- **C41** For periods of a number of days the split is counted from the start of the value: the pieces tile the value
and none is longer than the period; every piece but the last takes a whole period. -/
theorem C41_days_partial (n : Nat) (hn : 0 < n) (v : PeriodValue) (hv : v.start.Valid) (hd : 0 ≤ v.duration) :
    ∃ pieces, split (.days n) v = some pieces ∧ Tiles v.start.instant v.finish pieces ∧
      (∀ p ∈ pieces, p.value = v.value ∧ p.duration ≤ n * nsPerDay) ∧
      pieces.Pairwise (fun p q : PeriodValue => p.start.instant + n * nsPerDay ≤ q.start.instant) := by
  obtain ⟨pieces, h1, h2, h3, h4⟩ := split_spec (f := .days n) (Or.inr ⟨n, hn, rfl⟩) hv hd
  have hnext : ∀ p ∈ pieces, (nextPeriod (.days n) p.start).instant = p.start.instant + n * nsPerDay :=
    fun p hp => instant_addDays (Tiles.mem h2 p hp).1 n
  refine ⟨pieces, h1, h2, fun p hp => ⟨(h3 p hp).1, ?_⟩, ?_⟩
  · have := (h3 p hp).2.2
    rw [hnext p hp] at this
    unfold PeriodValue.finish at this
    omega
  · refine List.Pairwise.imp_of_mem ?_ h4
    intro p q hp _ h
    rw [hnext p hp] at h
    exact h

/-- **C41** So such a piece need not lie in one reporting period: with periods of seven days of which one starts on
1 January, the value of the five days from 6 January is not cut on 8 January. -/
theorem C41_days_refuted :
    split (.days 7) ⟨⟨⟨2023, 1, 6⟩, 0⟩, 5 * nsPerDay, 1⟩ = some [⟨⟨⟨2023, 1, 6⟩, 0⟩, 5 * nsPerDay, 1⟩] ∧
      inPeriod (.days 7) ⟨⟨2023, 1, 1⟩, 0⟩ ⟨⟨2023, 1, 6⟩, 0⟩ = true ∧
      inPeriod (.days 7) ⟨⟨2023, 1, 1⟩, 0⟩ ⟨⟨2023, 1, 10⟩, 0⟩ = false := by decide +kernel

/-! ## C42 -/

theorem run_single {l : Level} {values out : List PeriodValue} (h : run [l] values = some out) :
    ∃ s o, feed l [] values = some (s, o) ∧ out = o ++ (calcAggregation l.function s).toList := by
  unfold run setup at h
  simp only [List.map_cons, List.map_nil, appendAll_single] at h
  rcases hf : feed l [] values with _ | ⟨s, o⟩
  · simp only [hf] at h; cases h
  · simp only [hf, finalise, Option.some.injEq] at h
    exact ⟨s, o, rfl, h.symm⟩

theorem forall2_isSplit {f : Frequency} (hf : Civil f = true) {values : List PeriodValue} {parts : List (List PeriodValue)}
    (hv : ∀ v ∈ values, v.start.Valid ∧ 0 ≤ v.duration) (h : List.Forall₂ (fun v part => split f v = some part) values parts) :
    List.Forall₂ (IsSplit f) values parts := by
  induction h with
  | nil => exact List.Forall₂.nil
  | @cons v part vs ps h1 _ ih =>
    refine List.Forall₂.cons ?_ (ih fun x hx => hv x (List.mem_cons_of_mem _ hx))
    obtain ⟨pieces, h2, h3⟩ := split_isSplit hf (hv v List.mem_cons_self).1 (hv v List.mem_cons_self).2
    rw [h1] at h2
    cases h2
    exact h3

theorem tiles_group {closed : List Group} {last : Group} {a b : Int} (ht : Tiles a b ((closed.map Group.values).flatten ++ last.values)) :
    ∀ g ∈ closed ++ [last], ∃ c d, Tiles c d g.values ∧ a ≤ c ∧ d ≤ b := by
  have key : ∀ (gs : List Group) {a b : Int}, Tiles a b (gs.map Group.values).flatten → ∀ g ∈ gs, ∃ c d, Tiles c d g.values ∧ a ≤ c ∧ d ≤ b := by
    intro gs
    induction gs with
    | nil => intro a b _ g hg; cases hg
    | cons g gs ih =>
      intro a b h x hx
      rw [List.map_cons, List.flatten_cons] at h
      obtain ⟨m, h1, h2⟩ := Tiles.split h
      rcases List.mem_cons.mp hx with hx | hx
      · subst hx; exact ⟨a, m, h1, le_refl _, Tiles.le h2⟩
      · obtain ⟨c, d, h3, h4, h5⟩ := ih h2 x hx
        exact ⟨c, d, h3, le_trans (Tiles.le h1) h4, h5⟩
  apply key (closed ++ [last])
  simpa using ht

/-- **C42** When a run with monthly or annual reporting ends without panic, its records are those of the values cut at
the ends of the periods and grouped by period: all values of a group are in one period, different groups are in
different periods, every record has the start and the aggregated value of its group, and every record but the last has
the duration of its group. The last is too short by its last value: see `C42_last_duration_refuted`. -/
theorem C42_records_partial (f : Frequency) (hf : Civil f = true) (func : AggFunc) (values : List PeriodValue) (a b : Int)
    (ht : Tiles a b values) (hne : values ≠ []) (out : List PeriodValue) (hrun : run [⟨some f, func⟩] values = some out) :
    ∃ (parts : List (List PeriodValue)) (closed : List Group) (last : Group) (records : List PeriodValue) (r : PeriodValue),
      List.Forall₂ (IsSplit f) values parts ∧ (closed.map Group.values).flatten ++ last.values = parts.flatten ∧
      (∀ g ∈ closed ++ [last], ∀ p ∈ g.values, SamePeriod f g.first.start p.start) ∧
      (closed ++ [last]).Pairwise (fun g h => ¬ SamePeriod f g.first.start h.first.start) ∧
      out = records ++ [r] ∧
      List.Forall₂ (fun g r => Records func g r ∧ r.duration = total g.values) closed records ∧
      Records func last r ∧ r.duration = total last.values - last.last.duration := by
  obtain ⟨s, o, hfeed, hout⟩ := run_single hrun
  obtain ⟨parts, closed, last, h1, h2, h3, h4, h5, h6, h7⟩ := feed_spec (Or.inl hf) func ht hne hfeed
  rw [← h4] at h2
  have hg := tiles_group h2
  obtain ⟨c, d, hlast, _, _⟩ := hg last (by simp)
  obtain ⟨r, hr1, hr2, hr3⟩ := calcAggregation_spec func last hlast
  refine ⟨parts, closed, last, o, r, ?_, h4, ?_, ?_, ?_, h5, hr2, hr3⟩
  · exact forall2_isSplit hf (fun v hv => ⟨(Tiles.mem ht v hv).1, le_of_lt (Tiles.mem ht v hv).2.1⟩) h1
  · intro g hgm p hp
    obtain ⟨c, d, hgt, _, _⟩ := hg g hgm
    have hpm := Tiles.mem hgt p hp
    have hfv := (Tiles.mem hgt g.first List.mem_cons_self).1
    have hfi : g.first.start.instant = c := hgt.2.1
    exact (nextPeriod_spec hf hfv hpm.1 (by omega)).mp (h6 g hgm p hp)
  · refine List.Pairwise.imp_of_mem ?_ h7
    intro g h hgm hhm hle hs
    obtain ⟨c, d, hgt, _, _⟩ := hg g hgm
    obtain ⟨c', d', hht, _, _⟩ := hg h hhm
    have hgv := (Tiles.mem hgt g.first List.mem_cons_self).1
    have hhv := (Tiles.mem hht h.first List.mem_cons_self).1
    have h8 := nextPeriod_gt hf hgv
    have := (nextPeriod_spec hf hgv hhv (by omega)).mpr hs
    omega
  · rw [hout]
    simp only [h3, hr1, Option.toList_some]

/-- A run over thirty-three days from 20 January. -/
def dailyRun (d : Date) (n : Nat) (x : ℚ) : List PeriodValue := (List.range n).map fun i => ⟨⟨d.addDays i, 0⟩, nsPerDay, x⟩

example : Tiles (DateTime.instant ⟨⟨2023, 1, 20⟩, 0⟩) (DateTime.instant ⟨⟨2023, 2, 22⟩, 0⟩) (dailyRun ⟨2023, 1, 20⟩ 33 2) ∧
    run [⟨some .monthly, .sum⟩] (dailyRun ⟨2023, 1, 20⟩ 33 2) =
      some [⟨⟨⟨2023, 1, 20⟩, 0⟩, 12 * nsPerDay, 24⟩, ⟨⟨⟨2023, 2, 1⟩, 0⟩, 20 * nsPerDay, 42⟩] := by
  decide +kernel

theorem groups_starts {func : AggFunc} {closed : List Group} {records : List PeriodValue}
    (h : List.Forall₂ (fun g r => Records func g r ∧ r.duration = total g.values) closed records) :
    records.map (·.start) = closed.map (·.first.start) := by
  induction h with
  | nil => rfl
  | cons h1 _ ih => rw [List.map_cons, List.map_cons, ih, h1.1.1]

/-- **C42** The records tile the run up to the start of the last one, and every moment of the run lies in the period of
exactly one record. -/
theorem C42_tiling (f : Frequency) (hf : Civil f = true) (func : AggFunc) (values : List PeriodValue) (a b : Int)
    (ht : Tiles a b values) (hne : values ≠ []) (out : List PeriodValue) (hrun : run [⟨some f, func⟩] values = some out) :
    (∃ records r, out = records ++ [r] ∧ Tiles a r.start.instant records ∧ r.start.instant < b) ∧
      (∀ t : DateTime, t.Valid → a ≤ t.instant → t.instant < b → ∃ r ∈ out, SamePeriod f r.start t) ∧
      out.Pairwise (fun r r' => ¬ SamePeriod f r.start r'.start) := by
  obtain ⟨parts, closed, last, records, r, h1, h2, h3, h4, h5, h6, h7, _⟩ := C42_records_partial f hf func values a b ht hne out hrun
  have htile : Tiles a b parts.flatten := by
    have key : ∀ {values : List PeriodValue} {parts : List (List PeriodValue)} {a b : Int}, List.Forall₂ (IsSplit f) values parts →
        Tiles a b values → Tiles a b parts.flatten := by
      intro values parts a b h
      induction h generalizing a with
      | nil => intro ht; exact ht
      | @cons v part vs ps h1 _ ih =>
        intro ht
        rw [List.flatten_cons]
        refine Tiles.append ?_ (ih ht.2.2.2)
        have hfin : v.finish = a + v.duration := by unfold PeriodValue.finish; rw [ht.2.1]
        rw [← hfin, ← ht.2.1]
        exact h1.1
    exact key h1 ht
  rw [← h2] at htile
  obtain ⟨m, hm1, hm2⟩ := Tiles.split htile
  have hfirst : last.first.start.instant = m := hm2.2.1
  have hstarts := groups_starts h6
  have houts : out.map (·.start) = (closed ++ [last]).map (·.first.start) := by
    rw [h5, List.map_append, List.map_append, hstarts, List.map_singleton, List.map_singleton, h7.1]
  have hg := tiles_group htile
  refine ⟨⟨records, r, h5, ?_, ?_⟩, ?_, ?_⟩
  · rw [h7.1, hfirst]
    exact forall2_tile h6 hm1
  · rw [h7.1, hfirst]
    have := Tiles.le hm2.2.2.2
    have := hm2.2.2.1
    omega
  · intro t hv h8 h9
    rw [h2] at htile
    obtain ⟨p, hp, hp1, hp2⟩ := Tiles.cover htile t.instant h8 h9
    rw [← h2] at hp
    have hgroup : ∃ g ∈ closed ++ [last], p ∈ g.values := by
      rcases List.mem_append.mp hp with hp | hp
      · obtain ⟨l, hl, hpl⟩ := List.mem_flatten.mp hp
        obtain ⟨g, hgm, rfl⟩ := List.mem_map.mp hl
        exact ⟨g, List.mem_append_left _ hgm, hpl⟩
      · exact ⟨last, by simp, hp⟩
    obtain ⟨g, hgm, hpg⟩ := hgroup
    have hwithin : Within f p := by
      have key : ∀ {values : List PeriodValue} {parts : List (List PeriodValue)}, List.Forall₂ (IsSplit f) values parts →
          ∀ p ∈ parts.flatten, Within f p := by
        intro values parts h
        induction h with
        | nil => intro p hp; cases hp
        | @cons v part vs ps h1 _ ih =>
          intro p hp
          rw [List.flatten_cons] at hp
          rcases List.mem_append.mp hp with hp | hp
          · exact (h1.2.1 p hp).2
          · exact ih p hp
      apply key h1
      rw [← h2]; exact hp
    have hs := SamePeriod.trans (h3 g hgm p hpg) (hwithin t hv hp1 hp2)
    have : g.first.start ∈ out.map (·.start) := by
      rw [houts]; exact List.mem_map_of_mem hgm
    obtain ⟨x, hx, hxs⟩ := List.mem_map.mp this
    exact ⟨x, hx, by rw [hxs]; exact hs⟩
  · have : (out.map (·.start)).Pairwise (fun s s' => ¬ SamePeriod f s s') := by
      rw [houts, List.pairwise_map]; exact h4
    rwa [List.pairwise_map] at this

/-- **C42** A run never panics when no timestep is longer than the shortest period: 28 days for months, 365 for years. -/
theorem C42_no_panic (f : Frequency) (hf : Civil f = true) (func : AggFunc) (values : List PeriodValue) (a b : Int) (ht : Tiles a b values)
    (hlen : ∀ v ∈ values, v.duration ≤ (match f with | .monthly => 28 | _ => 365) * (nsPerDay : Int)) :
    ∃ out, run [⟨some f, func⟩] values = some out := by
  have hlen' : ∀ v ∈ values, v.duration ≤ shortest f := by
    cases f with
    | monthly => exact hlen
    | annual => exact hlen
    | days n => cases hf
  obtain ⟨⟨s, o⟩, h⟩ := feed_ok hf func values [] a b (Or.inl rfl) ht hlen'
  refine ⟨o ++ (calcAggregation func s).toList, ?_⟩
  unfold run setup
  simp only [List.map_cons, List.map_nil, appendAll_single, h, finalise]

/-- **C42** With longer timesteps it may panic: two timesteps of 30 days from 2 January. -/
theorem C42_panic_refuted :
    Tiles (DateTime.instant ⟨⟨2023, 1, 2⟩, 0⟩) (DateTime.instant ⟨⟨2023, 3, 3⟩, 0⟩)
      [⟨⟨⟨2023, 1, 2⟩, 0⟩, 30 * nsPerDay, 1⟩, ⟨⟨⟨2023, 2, 1⟩, 0⟩, 30 * nsPerDay, 1⟩] ∧
    run [⟨some .monthly, .sum⟩] [⟨⟨⟨2023, 1, 2⟩, 0⟩, 30 * nsPerDay, 1⟩, ⟨⟨⟨2023, 2, 1⟩, 0⟩, 30 * nsPerDay, 1⟩] = none := by
  decide +kernel

/-- **C42** The last record is reported without its last timestep: a run over the 31 days of January has one record,
with a duration of 30 days. -/
theorem C42_last_duration_refuted :
    Tiles (DateTime.instant ⟨⟨2023, 1, 1⟩, 0⟩) (DateTime.instant ⟨⟨2023, 2, 1⟩, 0⟩) (dailyRun ⟨2023, 1, 1⟩ 31 1) ∧
    run [⟨some .monthly, .sum⟩] (dailyRun ⟨2023, 1, 1⟩ 31 1) = some [⟨⟨⟨2023, 1, 1⟩, 0⟩, 30 * nsPerDay, 31⟩] := by
  decide +kernel

/-- **C42** A timestep across the end of a month is counted in full in both: the sums of the months add up to more than
the recorded values. -/
theorem C42_sum_refuted :
    Tiles (DateTime.instant ⟨⟨2023, 1, 22⟩, 0⟩) (DateTime.instant ⟨⟨2023, 2, 5⟩, 0⟩)
      [⟨⟨⟨2023, 1, 22⟩, 0⟩, 7 * nsPerDay, 10⟩, ⟨⟨⟨2023, 1, 29⟩, 0⟩, 7 * nsPerDay, 10⟩] ∧
    run [⟨some .monthly, .sum⟩] [⟨⟨⟨2023, 1, 22⟩, 0⟩, 7 * nsPerDay, 10⟩, ⟨⟨⟨2023, 1, 29⟩, 0⟩, 7 * nsPerDay, 10⟩] =
      some [⟨⟨⟨2023, 1, 22⟩, 0⟩, 10 * nsPerDay, 20⟩, ⟨⟨⟨2023, 2, 1⟩, 0⟩, 0, 10⟩] := by
  decide +kernel

/-- **C42** Reporting over a number of days: the records again tile the run up to the last, and every value that is
aggregated in a record starts less than that number of days after it. -/
theorem C42_days_partial (n : Nat) (hn : 0 < n) (func : AggFunc) (values : List PeriodValue) (a b : Int)
    (ht : Tiles a b values) (hne : values ≠ []) (out : List PeriodValue) (hrun : run [⟨some (.days n), func⟩] values = some out) :
    ∃ (closed : List Group) (last : Group) (records : List PeriodValue) (r : PeriodValue),
      Tiles a b ((closed.map Group.values).flatten ++ last.values) ∧ out = records ++ [r] ∧
      (∀ g ∈ closed ++ [last], ∀ p ∈ g.values, p.start.instant < g.first.start.instant + n * nsPerDay) ∧
      (closed ++ [last]).Pairwise (fun g h : Group => g.first.start.instant + n * nsPerDay ≤ h.first.start.instant) ∧
      List.Forall₂ (fun g r => Records func g r ∧ r.duration = total g.values) closed records ∧
      Records func last r ∧ r.duration = total last.values - last.last.duration ∧ Tiles a r.start.instant records := by
  obtain ⟨s, o, hfeed, hout⟩ := run_single hrun
  obtain ⟨parts, closed, last, h1, h2, h3, h4, h5, h6, h7⟩ := feed_spec (Or.inr ⟨n, hn, rfl⟩) func ht hne hfeed
  rw [← h4] at h2
  have hg := tiles_group h2
  obtain ⟨c, d, hlast, _, _⟩ := hg last (by simp)
  obtain ⟨r, hr1, hr2, hr3⟩ := calcAggregation_spec func last hlast
  have hnext : ∀ g ∈ closed ++ [last], (nextPeriod (.days n) g.first.start).instant = g.first.start.instant + n * nsPerDay := by
    intro g hgm
    obtain ⟨c, d, hgt, _, _⟩ := hg g hgm
    exact instant_addDays (Tiles.mem hgt g.first List.mem_cons_self).1 n
  refine ⟨closed, last, o, r, h2, ?_, ?_, ?_, h5, hr2, hr3, ?_⟩
  · rw [hout]
    simp only [h3, hr1, Option.toList_some]
  · intro g hgm p hp
    rw [← hnext g hgm]; exact h6 g hgm p hp
  · refine List.Pairwise.imp_of_mem ?_ h7
    intro g h hgm _ hle
    rwa [hnext g hgm] at hle
  · obtain ⟨m, hm1, hm2⟩ := Tiles.split h2
    have hfirst : last.first.start.instant = m := hm2.2.1
    rw [hr2.1, hfirst]
    exact forall2_tile h5 hm1

/-- **C42** But the periods are not of that number of days: with timesteps of five days and periods of seven, every
record covers ten days. -/
theorem C42_days_refuted :
    run [⟨some (.days 7), .sum⟩] [⟨⟨⟨2023, 1, 1⟩, 0⟩, 5 * nsPerDay, 1⟩, ⟨⟨⟨2023, 1, 6⟩, 0⟩, 5 * nsPerDay, 1⟩,
      ⟨⟨⟨2023, 1, 11⟩, 0⟩, 5 * nsPerDay, 1⟩] =
      some [⟨⟨⟨2023, 1, 1⟩, 0⟩, 10 * nsPerDay, 2⟩, ⟨⟨⟨2023, 1, 11⟩, 0⟩, 0, 1⟩] := by decide +kernel

theorem feed_none (func : AggFunc) (values : List PeriodValue) : ∀ state, feed ⟨none, func⟩ state values = some (state ++ values, []) := by
  induction values with
  | nil => intro state; simp [feed]
  | cons v vs ih => intro state; simp [feed, processValue, ih]

/-- **C42** Without a frequency there is one record, of all the values; it too is short by the last of them. -/
theorem C42_no_frequency (func : AggFunc) (g : Group) (a b : Int) (ht : Tiles a b g.values) :
    ∃ r, run [⟨none, func⟩] g.values = some [r] ∧ Records func g r ∧ r.duration = b - a - g.last.duration := by
  obtain ⟨r, h1, h2, h3⟩ := calcAggregation_spec func g ht
  refine ⟨r, ?_, h2, ?_⟩
  · unfold run setup
    simp only [List.map_cons, List.map_nil, appendAll_single, feed_none, List.nil_append, finalise, h1, Option.toList_some]
  · have := Tiles.total ht
    omega

example : run [⟨none, .max⟩] (dailyRun ⟨2023, 1, 1⟩ 3 7) = some [⟨⟨⟨2023, 1, 1⟩, 0⟩, 2 * nsPerDay, 7⟩] := by decide +kernel

/-! ## C43 -/

/-- Every inner period lies in one outer period. -/
def Refines (inner outer : Frequency) : Bool :=
  match inner, outer with
  | .monthly, .monthly => true
  | .monthly, .annual => true
  | .annual, .annual => true
  | _, _ => false

theorem Refines.civil {inner outer : Frequency} (h : Refines inner outer = true) : Civil inner = true ∧ Civil outer = true := by
  cases inner <;> cases outer <;> first | exact ⟨rfl, rfl⟩ | cases h

theorem Refines.same {inner outer : Frequency} (h : Refines inner outer = true) {a b : DateTime} (hs : SamePeriod inner a b) :
    SamePeriod outer a b := by
  cases inner <;> cases outer <;> first | exact hs | exact hs.1 | cases h

theorem run_nested {l k : Level} {values out : List PeriodValue} (h : run [l, k] values = some out) :
    ∃ si mids so o, feed k [] values = some (si, mids) ∧ feed l [] mids = some (so, o) ∧
      ((calcAggregation k.function si = none ∧ out = o ++ (calcAggregation l.function so).toList) ∨
        ∃ a so' x, calcAggregation k.function si = some a ∧ processValue l so a = some (so', x) ∧
          out = o ++ (calcAggregation l.function so').toList) := by
  unfold run setup at h
  simp only [List.map_cons, List.map_nil] at h
  rcases ha : appendAll [l, k] [[], []] values with _ | ⟨st, o⟩
  · simp only [ha] at h; cases h
  · obtain ⟨cs', mids, so, h1, h2, h3⟩ := appendAll_cons l [k] values [] [[]] st o ha
    rw [appendAll_single] at h1
    rcases hk : feed k [] values with _ | ⟨si, mids'⟩
    · simp only [hk] at h1; cases h1
    · simp only [hk, Option.some.injEq, Prod.mk.injEq] at h1
      obtain ⟨hcs, hmids⟩ := h1
      subst hmids
      subst h3
      rw [← hcs] at ha
      refine ⟨si, mids', so, o, rfl, h2, ?_⟩
      simp only [ha, finalise] at h
      rcases hc : calcAggregation k.function si with _ | a
      · left
        simp only [hc, Option.some.injEq] at h
        exact ⟨rfl, h.symm⟩
      · right
        simp only [hc] at h
        rcases hp : processValue l so a with _ | ⟨so', x⟩
        · simp only [hp] at h; cases h
        · simp only [hp, Option.some.injEq] at h
          exact ⟨a, so', x, rfl, hp, h.symm⟩

/-- What an aggregator over months or years keeps and has emitted, in terms of periods. -/
theorem feed_civil {f : Frequency} (hf : Civil f = true) (func : AggFunc) {values : List PeriodValue} {a b : Int}
    (ht : Tiles a b values) (hne : values ≠ []) {s' out : List PeriodValue} (h : feed ⟨some f, func⟩ [] values = some (s', out)) :
    ∃ (closed : List Group) (last : Group), s' = last.values ∧ Tiles last.first.start.instant b last.values ∧
      Tiles a last.first.start.instant out ∧ out.map (·.start) = closed.map (·.first.start) ∧
      (∀ g ∈ closed ++ [last], g.first.start.Valid ∧ a ≤ g.first.start.instant) ∧
      (∀ g ∈ closed, (nextPeriod f g.first.start).instant ≤ last.first.start.instant) ∧
      (closed ++ [last]).Pairwise (fun g h => ¬ SamePeriod f g.first.start h.first.start) ∧
      (∀ u : DateTime, u.Valid → a ≤ u.instant → u.instant < b → ∃ g ∈ closed ++ [last], SamePeriod f g.first.start u) ∧
      (∀ u : DateTime, u.Valid → last.first.start.instant ≤ u.instant → u.instant < b → SamePeriod f last.first.start u) := by
  obtain ⟨parts, closed, last, h1, h2, h3, h4, h5, h6, h7⟩ := feed_spec (Or.inl hf) func ht hne h
  have hsplit := forall2_isSplit hf (fun v hv => ⟨(Tiles.mem ht v hv).1, le_of_lt (Tiles.mem ht v hv).2.1⟩) h1
  have hwithin : ∀ p ∈ parts.flatten, Within f p := by
    have key : ∀ {values : List PeriodValue} {parts : List (List PeriodValue)}, List.Forall₂ (IsSplit f) values parts →
        ∀ p ∈ parts.flatten, Within f p := by
      intro values parts h
      induction h with
      | nil => intro p hp; cases hp
      | @cons v part vs ps h1 _ ih =>
        intro p hp
        rw [List.flatten_cons] at hp
        rcases List.mem_append.mp hp with hp | hp
        · exact (h1.2.1 p hp).2
        · exact ih p hp
    exact key hsplit
  have h2' := h2
  rw [← h4] at h2'
  have hg := tiles_group h2'
  obtain ⟨m, hm1, hm2⟩ := Tiles.split h2'
  have hfirst : last.first.start.instant = m := hm2.2.1
  have hvalid : ∀ g ∈ closed ++ [last], g.first.start.Valid ∧ a ≤ g.first.start.instant := by
    intro g hgm
    obtain ⟨c, d, hgt, hc, _⟩ := hg g hgm
    have : g.first.start.instant = c := hgt.2.1
    exact ⟨(Tiles.mem hgt g.first List.mem_cons_self).1, by omega⟩
  have hsame : ∀ g ∈ closed ++ [last], ∀ p ∈ g.values, SamePeriod f g.first.start p.start := by
    intro g hgm p hp
    obtain ⟨c, d, hgt, _, _⟩ := hg g hgm
    have hpm := Tiles.mem hgt p hp
    have hfi : g.first.start.instant = c := hgt.2.1
    exact (nextPeriod_spec hf (hvalid g hgm).1 hpm.1 (by omega)).mp (h6 g hgm p hp)
  refine ⟨closed, last, h3, by rw [hfirst]; exact hm2, by rw [hfirst]; exact forall2_tile h5 hm1, groups_starts h5, hvalid, ?_, ?_, ?_, ?_⟩
  · intro g hgm
    exact (List.pairwise_append.mp h7).2.2 g hgm last (by simp)
  · refine List.Pairwise.imp_of_mem ?_ h7
    intro g h hgm hhm hle hs
    have h8 := nextPeriod_gt hf (hvalid g hgm).1
    have := (nextPeriod_spec hf (hvalid g hgm).1 (hvalid h hhm).1 (by omega)).mpr hs
    omega
  · intro u hu h8 h9
    obtain ⟨p, hp, hp1, hp2⟩ := Tiles.cover h2 u.instant h8 h9
    have hpw := hwithin p hp
    rw [← h4] at hp
    have hgroup : ∃ g ∈ closed ++ [last], p ∈ g.values := by
      rcases List.mem_append.mp hp with hp | hp
      · obtain ⟨l, hl, hpl⟩ := List.mem_flatten.mp hp
        obtain ⟨g, hgm, rfl⟩ := List.mem_map.mp hl
        exact ⟨g, List.mem_append_left _ hgm, hpl⟩
      · exact ⟨last, by simp, hp⟩
    obtain ⟨g, hgm, hpg⟩ := hgroup
    exact ⟨g, hgm, SamePeriod.trans (hsame g hgm p hpg) (hpw u hu hp1 hp2)⟩
  · intro u hu h8 h9
    obtain ⟨p, hp, hp1, hp2⟩ := Tiles.cover hm2 u.instant (by omega) h9
    have hpw := hwithin p (by rw [← h4]; exact List.mem_append_right _ hp)
    exact SamePeriod.trans (hsame last (by simp) p hp) (hpw u hu hp1 hp2)

theorem emit_inside (f : Frequency) (func : AggFunc) (ps : List PeriodValue) : ∀ (g : Group),
    (∀ p ∈ ps, inPeriod f g.first.start p.start = true) → emit f func g.values ps = (g.values ++ ps, []) := by
  induction ps with
  | nil => intro g _; simp [emit]
  | cons p ps ih =>
    intro g h
    have hstep : processPiece f func g.values p = (g.values ++ [p], none) := by
      show (if inPeriod f g.first.start p.start then (g.values ++ [p], none) else _) = _
      rw [if_pos (h p List.mem_cons_self)]
    have := ih ⟨g.first, g.rest ++ [p]⟩ (fun q hq => h q (List.mem_cons_of_mem _ hq))
    have e : (Group.mk g.first (g.rest ++ [p])).values = g.values ++ [p] := rfl
    rw [e] at this
    simp only [emit, hstep, this, Option.toList_none, List.nil_append, List.append_assoc, List.singleton_append]

theorem processValue_inside {f : Frequency} (hf : Civil f = true) (func : AggFunc) (g : Group) {v : PeriodValue} (hv : v.start.Valid)
    (hd : 0 ≤ v.duration) (h : ∀ u : DateTime, u.Valid → v.start.instant ≤ u.instant → u.instant < v.finish → SamePeriod f g.first.start u)
    {s : List PeriodValue} {o : Option PeriodValue} (hp : processValue ⟨some f, func⟩ g.values v = some (s, o)) :
    ∃ pieces, s = g.values ++ pieces ∧ Tiles v.start.instant v.finish pieces ∧ o = none := by
  obtain ⟨pieces, h1, h2⟩ := split_isSplit hf hv hd
  have hin : ∀ p ∈ pieces, inPeriod f g.first.start p.start = true := by
    intro p hp
    have hm := Tiles.mem h2.1 p hp
    rw [inPeriod_iff hf]
    refine h p.start hm.1 hm.2.2.1 ?_
    have := hm.2.2.2
    unfold PeriodValue.finish at this ⊢
    have := hm.2.1
    omega
  have he := emit_inside f func pieces g hin
  obtain ⟨hle, _⟩ := processPieces_emit f func pieces g.values none
  simp only [Option.toList_none, List.nil_append] at hle
  simp only [processValue, h1] at hp
  rw [hle (by rw [he]; simp), he] at hp
  simp only [Option.some.injEq, Prod.mk.injEq] at hp
  exact ⟨pieces, hp.1.symm, h2.1, hp.2.symm⟩

/-- **C43** With two levels of which the inner refines the outer, for example months in years: if the outer period in
which the run ends contains time of the run from before the last inner period, then every outer period touched by the
run is reported, and none twice. Without that condition the claim is false: see the refutations below. -/
theorem C43_nested_partial (inner outer : Frequency) (hr : Refines inner outer = true) (fi fo : AggFunc) (values : List PeriodValue) (a b : Int)
    (ht : Tiles a b values) (hne : values ≠ []) (out : List PeriodValue) (hrun : run [⟨some outer, fo⟩, ⟨some inner, fi⟩] values = some out)
    (t e : DateTime) (he : e.Valid ∧ e.instant + 1 = b) (htv : t.Valid ∧ a ≤ t.instant ∧ t.instant ≤ e.instant)
    (hearlier : ¬ SamePeriod inner t e) (hsame : SamePeriod outer t e) :
    (∀ u : DateTime, u.Valid → a ≤ u.instant → u.instant < b → ∃ r ∈ out, SamePeriod outer r.start u) ∧
      out.Pairwise (fun r r' => ¬ SamePeriod outer r.start r'.start) := by
  obtain ⟨hci, hco⟩ := Refines.civil hr
  obtain ⟨si, mids, so, o, hfi, hfo, hfin⟩ := run_nested hrun
  obtain ⟨closedI, lastI, hI1, hI2, hI3, _, hI5, _, _, _, hI9⟩ := feed_civil hci fi ht hne hfi
  have hw := (hI5 lastI (by simp)).1
  have hmb : lastI.first.start.instant < b := by
    have := Tiles.le hI2.2.2.2
    have := hI2.2.2.1
    omega
  have htm : t.instant < lastI.first.start.instant := by
    by_contra hc
    have h1 := hI9 t htv.1 (by omega) (by omega)
    have h2 := hI9 e he.1 (by omega) (by omega)
    exact hearlier (SamePeriod.trans h1.symm h2)
  have hmidsne : mids ≠ [] := by
    intro h
    rw [h] at hI3
    have : a = lastI.first.start.instant := hI3
    omega
  obtain ⟨closedO, lastO, hO1, hO2, hO3, hO4, hO5, hO6, hO7, hO8, _⟩ := feed_civil hco fo hI3 hmidsne hfo
  have htw : SamePeriod outer t lastI.first.start := SamePeriod.between hco htv.1 hw he.1 (by omega) (by omega) hsame
  have hlast : SamePeriod outer lastO.first.start lastI.first.start := by
    obtain ⟨g, hgm, hgs⟩ := hO8 t htv.1 htv.2.1 htm
    rcases List.mem_append.mp hgm with hg | hg
    · exfalso
      have h1 := hO6 g hg
      have h2 := hO5 g hgm
      have h3 := nextPeriod_gt hco h2.1
      have h4 : lastO.first.start.instant < lastI.first.start.instant := by
        have := Tiles.le hO2.2.2.2
        have := hO2.2.2.1
        omega
      have := (nextPeriod_spec hco h2.1 hw (by omega)).mpr (SamePeriod.trans hgs htw)
      omega
    · rw [List.mem_singleton] at hg
      subst hg
      exact SamePeriod.trans hgs htw
  obtain ⟨rI, hrI1, hrI2, hrI3⟩ := calcAggregation_spec fi lastI hI2
  rcases hfin with ⟨hnone, _⟩ | ⟨fin, so', x, hf1, hf2, hf3⟩
  · rw [hI1] at hnone
    rw [hrI1] at hnone; cases hnone
  · rw [hI1] at hf1
    simp only at hf1
    rw [hrI1] at hf1
    cases hf1
    have hlastmem : lastI.last ∈ lastI.values := by
      rw [← Group.last_cons]; exact List.getLast_mem _
    have hlm := Tiles.mem hI2 lastI.last hlastmem
    have htot := Tiles.total hI2
    have hdur : rI.duration = b - lastI.first.start.instant - lastI.last.duration := by rw [hrI3]; omega
    have hlfin : lastI.last.finish = lastI.last.start.instant + lastI.last.duration := rfl
    have hrfin : rI.finish = b - lastI.last.duration := by
      unfold PeriodValue.finish
      rw [hrI2.1, hdur]; omega
    rw [hO1] at hf2
    obtain ⟨pieces, hp1, hp2, _⟩ := processValue_inside hco fo lastO (v := rI) (by rw [hrI2.1]; exact hw) (by omega) (by
      intro u hu h1 h2
      rw [hrI2.1] at h1
      exact SamePeriod.trans hlast (Refines.same hr (hI9 u hu h1 (by omega)))) hf2
    have hso' : so' = (Group.mk lastO.first (lastO.rest ++ pieces)).values := by rw [hp1]; rfl
    have htile' : Tiles lastO.first.start.instant rI.finish (Group.mk lastO.first (lastO.rest ++ pieces)).values := by
      rw [← hso', hp1]
      refine Tiles.append hO2 ?_
      rw [hrI2.1] at hp2
      exact hp2
    obtain ⟨r, hr1, hr2, _⟩ := calcAggregation_spec fo _ htile'
    rw [← hso'] at hr1
    have hout : out = o ++ [r] := by
      rw [hf3]
      simp only [hr1, Option.toList_some]
    have hstarts : out.map (·.start) = (closedO ++ [lastO]).map (·.first.start) := by
      rw [hout, List.map_append, List.map_append, hO4, List.map_singleton, List.map_singleton, hr2.1]
    refine ⟨fun u hu h1 h2 => ?_, ?_⟩
    · have hg : ∃ g ∈ closedO ++ [lastO], SamePeriod outer g.first.start u := by
        by_cases hum : u.instant < lastI.first.start.instant
        · exact hO8 u hu h1 hum
        · exact ⟨lastO, by simp, SamePeriod.trans hlast (Refines.same hr (hI9 u hu (by omega) h2))⟩
      obtain ⟨g, hgm, hgs⟩ := hg
      have : g.first.start ∈ out.map (·.start) := by
        rw [hstarts]; exact List.mem_map_of_mem hgm
      obtain ⟨y, hy, hys⟩ := List.mem_map.mp this
      exact ⟨y, hy, by rw [hys]; exact hgs⟩
    · have : (out.map (·.start)).Pairwise (fun s s' => ¬ SamePeriod outer s s') := by
        rw [hstarts, List.pairwise_map]; exact hO7
      rwa [List.pairwise_map] at this

/-- Ten-day timesteps. -/
def tenDays (d : Date) (n : Nat) : List PeriodValue := (List.range n).map fun i => ⟨⟨d.addDays (10 * i), 0⟩, 10 * nsPerDay, 1⟩

/-- Two years that end in March: both are reported. -/
example : Tiles (DateTime.instant ⟨⟨2022, 11, 1⟩, 0⟩) (DateTime.instant ⟨⟨2023, 3, 1⟩, 0⟩) (tenDays ⟨2022, 11, 1⟩ 12) ∧
    (⟨⟨2023, 2, 28⟩, nsPerDay - 1⟩ : DateTime).Valid ∧
    (⟨⟨2023, 2, 28⟩, nsPerDay - 1⟩ : DateTime).instant + 1 = (⟨⟨2023, 3, 1⟩, 0⟩ : DateTime).instant ∧
    ¬ SamePeriod .monthly ⟨⟨2023, 1, 5⟩, 0⟩ ⟨⟨2023, 2, 28⟩, nsPerDay - 1⟩ ∧ SamePeriod .annual ⟨⟨2023, 1, 5⟩, 0⟩ ⟨⟨2023, 2, 28⟩, nsPerDay - 1⟩ ∧
    run [⟨some .annual, .sum⟩, ⟨some .monthly, .max⟩] (tenDays ⟨2022, 11, 1⟩ 12) =
      some [⟨⟨⟨2022, 11, 1⟩, 0⟩, 61 * nsPerDay, 2⟩, ⟨⟨⟨2023, 1, 1⟩, 0⟩, 31 * nsPerDay, 2⟩] := by decide +kernel

/-- **C43** The year before the last is lost when the run ends in January: the record that the outer aggregator yields
while the run is finalised is thrown away. Here the run covers November, December and twenty days of January. -/
theorem C43_lost_year_refuted :
    Tiles (DateTime.instant ⟨⟨2022, 11, 1⟩, 0⟩) (DateTime.instant ⟨⟨2023, 1, 20⟩, 0⟩) (tenDays ⟨2022, 11, 1⟩ 8) ∧
    run [⟨some .annual, .sum⟩, ⟨some .monthly, .max⟩] (tenDays ⟨2022, 11, 1⟩ 8) =
      some [⟨⟨⟨2023, 1, 1⟩, 0⟩, 0, 1⟩] := by decide +kernel

/-- **C43** The last month is lost when it has a single timestep, for its record then has no duration: the sum over the
year of the monthly sums of 32 days is 31. -/
theorem C43_lost_month_refuted :
    Tiles (DateTime.instant ⟨⟨2023, 1, 1⟩, 0⟩) (DateTime.instant ⟨⟨2023, 2, 2⟩, 0⟩) (dailyRun ⟨2023, 1, 1⟩ 32 1) ∧
    run [⟨some .annual, .sum⟩, ⟨some .monthly, .sum⟩] (dailyRun ⟨2023, 1, 1⟩ 32 1) =
      some [⟨⟨⟨2023, 1, 1⟩, 0⟩, 0, 31⟩] := by decide +kernel

/-- **C43** A run of a single timestep reports nothing at all. -/
theorem C43_single_step_refuted :
    run [⟨some .annual, .sum⟩, ⟨some .monthly, .sum⟩] [⟨⟨⟨2023, 1, 1⟩, 0⟩, nsPerDay, 5⟩] = some [] := by decide +kernel

end Verif.Agg
