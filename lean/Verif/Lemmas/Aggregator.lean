import Verif.Spec.Aggregator
import Verif.Lemmas.Calendar
import Verif.Props.AggFuncs

/-!
# Lemmas about periodic aggregation
-/

namespace Verif.Agg

open Verif.Calendar Verif.Time

theorem not_le_iff {a b : DateTime} (ha : a.Valid) (hb : b.Valid) : ¬ a.le b ↔ b.instant < a.instant := by
  rw [le_iff_instant ha hb]; omega

/-! ## Tilings -/

theorem Tiles.append {xs ys : List PeriodValue} : ∀ {a m b : Int}, Tiles a m xs → Tiles m b ys → Tiles a b (xs ++ ys) := by
  induction xs with
  | nil =>
    intro a m b h1 h2
    have : a = m := h1
    rw [this]; exact h2
  | cons p ps ih =>
    intro a m b h1 h2
    exact ⟨h1.1, h1.2.1, h1.2.2.1, ih h1.2.2.2 h2⟩

theorem Tiles.split {xs ys : List PeriodValue} : ∀ {a b : Int}, Tiles a b (xs ++ ys) → ∃ m, Tiles a m xs ∧ Tiles m b ys := by
  induction xs with
  | nil => intro a b h; exact ⟨a, rfl, h⟩
  | cons p ps ih =>
    intro a b h
    obtain ⟨m, h1, h2⟩ := ih h.2.2.2
    exact ⟨m, ⟨h.1, h.2.1, h.2.2.1, h1⟩, h2⟩

theorem Tiles.total : ∀ {ps : List PeriodValue} {a b : Int}, Tiles a b ps → b = a + Verif.Agg.total ps := by
  intro ps
  induction ps with
  | nil => intro a b h; have : a = b := h; simp [Verif.Agg.total, this]
  | cons p ps ih =>
    intro a b h
    have := ih h.2.2.2
    unfold Verif.Agg.total at this ⊢
    rw [List.map_cons, List.sum_cons]
    omega

theorem Tiles.mem {ps : List PeriodValue} : ∀ {a b : Int}, Tiles a b ps → ∀ p ∈ ps, p.start.Valid ∧ 0 < p.duration ∧
    a ≤ p.start.instant ∧ p.finish ≤ b := by
  induction ps with
  | nil => intro a b _ p hp; cases hp
  | cons q ps ih =>
    intro a b h p hp
    have hle : ∀ {ps : List PeriodValue} {a b : Int}, Tiles a b ps → a ≤ b := by
      intro ps
      induction ps with
      | nil => intro a b h; exact le_of_eq h
      | cons q ps ih => intro a b h; have := ih h.2.2.2; have := h.2.2.1; omega
    have h3 := hle h.2.2.2
    rcases List.mem_cons.mp hp with hp | hp
    · subst hp
      refine ⟨h.1, h.2.2.1, le_of_eq h.2.1.symm, ?_⟩
      unfold PeriodValue.finish
      rw [h.2.1]; exact h3
    · obtain ⟨h4, h5, h6, h7⟩ := ih h.2.2.2 p hp
      have := h.2.2.1
      exact ⟨h4, h5, by omega, h7⟩

theorem Tiles.le {ps : List PeriodValue} {a b : Int} (h : Tiles a b ps) : a ≤ b := by
  induction ps generalizing a with
  | nil => exact le_of_eq h
  | cons q ps ih => have := ih h.2.2.2; have := h.2.2.1; omega

/-- Every moment of the span lies in one of the tiles. -/
theorem Tiles.cover {ps : List PeriodValue} : ∀ {a b : Int}, Tiles a b ps → ∀ t, a ≤ t → t < b →
    ∃ p ∈ ps, p.start.instant ≤ t ∧ t < p.finish := by
  induction ps with
  | nil => intro a b h t h1 h2; have : a = b := h; omega
  | cons p ps ih =>
    intro a b h t h1 h2
    by_cases ht : t < a + p.duration
    · refine ⟨p, List.mem_cons_self, by rw [h.2.1]; exact h1, ?_⟩
      unfold PeriodValue.finish; rw [h.2.1]; exact ht
    · obtain ⟨q, hq, h3⟩ := ih h.2.2.2 t (by omega) h2
      exact ⟨q, List.mem_cons_of_mem _ hq, h3⟩

/-! ## Periods -/

theorem inPeriod_iff {f : Frequency} (hf : Civil f = true) (a b : DateTime) : inPeriod f a b = true ↔ SamePeriod f a b := by
  cases f with
  | monthly => simp [inPeriod, SamePeriod]
  | annual => simp [inPeriod, SamePeriod]
  | days n => cases hf

theorem nextPeriod_valid {f : Frequency} {t : DateTime} (h : t.Valid) : (nextPeriod f t).Valid := by
  cases f with
  | monthly =>
    have hv := addMonths_valid h.1 1
    refine ⟨⟨hv.1, hv.2.1, le_refl _, ?_⟩, show 0 < nsPerDay by decide⟩
    have := daysInMonth_pos (y := (t.date.addMonths 1).year) hv.1 hv.2.1
    show 1 ≤ daysInMonth (t.date.addMonths 1).year (t.date.addMonths 1).month
    omega
  | annual => exact ⟨⟨show 1 ≤ 1 by decide, show 1 ≤ 12 by decide, le_refl _, by simp [nextPeriod, daysInMonth]⟩, show 0 < nsPerDay by decide⟩
  | days n => exact ⟨addDays_valid h.1 n, h.2⟩

/-- The next period starts after the moment, and it is where the period of the moment ends. -/
theorem nextPeriod_spec {f : Frequency} (hf : Civil f = true) {t u : DateTime} (ht : t.Valid) (hu : u.Valid)
    (h : t.instant ≤ u.instant) : u.instant < (nextPeriod f t).instant ↔ SamePeriod f t u := by
  rw [← not_le_iff (nextPeriod_valid ht) hu]
  have hle : t.le u := (le_iff_instant ht hu).mpr h
  obtain ⟨⟨y, m, d⟩, n⟩ := t
  obtain ⟨⟨y', m', d'⟩, n'⟩ := u
  obtain ⟨⟨h1, h2, h3, h4⟩, h5⟩ := ht
  obtain ⟨⟨h1', h2', h3', h4'⟩, h5'⟩ := hu
  simp only at *
  unfold DateTime.le Date.lt at hle
  cases f with
  | monthly =>
    unfold nextPeriod SamePeriod DateTime.le Date.lt Date.addMonths
    simp only [Date.mk.injEq] at hle ⊢
    omega
  | annual =>
    unfold nextPeriod SamePeriod DateTime.le Date.lt Date.addMonths
    simp only [Date.mk.injEq] at hle ⊢
    omega
  | days n => cases hf

theorem nextPeriod_gt {f : Frequency} (hf : Civil f = true) {t : DateTime} (ht : t.Valid) : t.instant < (nextPeriod f t).instant := by
  rw [nextPeriod_spec hf ht ht (le_refl _)]
  cases f with
  | monthly => exact ⟨rfl, rfl⟩
  | annual => exact rfl
  | days n => cases hf

theorem instant_addDays {t : DateTime} (ht : t.Valid) (n : Nat) :
    (⟨t.date.addDays n, t.ns⟩ : DateTime).instant = t.instant + n * nsPerDay := by
  unfold DateTime.instant
  rw [dayNumber_addDays ht.1]
  simp only
  rw [Int.add_mul]
  omega

theorem nextPeriod_advances {f : Frequency} (hf : Civil f = true ∨ ∃ n, 0 < n ∧ f = .days n) {t : DateTime} (ht : t.Valid) :
    t.instant < (nextPeriod f t).instant := by
  rcases hf with hf | ⟨n, hn, rfl⟩
  · exact nextPeriod_gt hf ht
  · show t.instant < (⟨t.date.addDays n, t.ns⟩ : DateTime).instant
    rw [instant_addDays ht]
    have : (0 : Int) < n * nsPerDay := Int.mul_pos (by exact_mod_cast hn) (by decide)
    omega

theorem SamePeriod.symm {f : Frequency} {a b : DateTime} (h : SamePeriod f a b) : SamePeriod f b a := by
  cases f with
  | monthly => exact ⟨h.1.symm, h.2.symm⟩
  | annual => exact Eq.symm h
  | days n => exact h

theorem SamePeriod.trans {f : Frequency} {a b c : DateTime} (h : SamePeriod f a b) (h' : SamePeriod f b c) : SamePeriod f a c := by
  cases f with
  | monthly => exact ⟨h.1.trans h'.1, h.2.trans h'.2⟩
  | annual => exact Eq.trans h h'
  | days n => exact h

theorem SamePeriod.refl {f : Frequency} (hf : Civil f = true) (a : DateTime) : SamePeriod f a a := by
  cases f with
  | monthly => exact ⟨rfl, rfl⟩
  | annual => exact rfl
  | days n => cases hf

/-- Periods are intervals. -/
theorem SamePeriod.between {f : Frequency} (hf : Civil f = true) {a b c : DateTime} (ha : a.Valid) (hb : b.Valid) (hc : c.Valid)
    (hab : a.instant ≤ b.instant) (hbc : b.instant ≤ c.instant) (h : SamePeriod f a c) : SamePeriod f a b := by
  have := (nextPeriod_spec hf ha hc (by omega)).mpr h
  exact (nextPeriod_spec hf ha hb hab).mp (by omega)

/-! ## Splitting -/

theorem splitLoop_spec {f : Frequency} (hf : Civil f = true ∨ ∃ n, 0 < n ∧ f = .days n) (x : ℚ) {stop : DateTime} (hs : stop.Valid) :
    ∀ (fuel : Nat) (current : DateTime), current.Valid → stop.instant - current.instant < fuel → 0 < fuel →
      ∃ pieces, splitLoop f x stop fuel current = some pieces ∧
        (current.instant ≤ stop.instant → Tiles current.instant stop.instant pieces) ∧
        (stop.instant ≤ current.instant → pieces = []) ∧
        (∀ p ∈ pieces, p.value = x ∧ current.instant ≤ p.start.instant ∧ p.finish ≤ (nextPeriod f p.start).instant) ∧
        pieces.Pairwise (fun p q => (nextPeriod f p.start).instant ≤ q.start.instant) := by
  intro fuel
  induction fuel with
  | zero => intro current _ _ h; exact absurd h (by decide)
  | succ fuel ih =>
    intro current hc hfuel _
    unfold splitLoop
    by_cases hle : stop.le current
    · rw [if_pos hle]
      have h := (le_iff_instant hs hc).mp hle
      exact ⟨[], rfl, fun h' => (show current.instant = stop.instant by omega), fun _ => rfl, fun p hp => (by cases hp), List.Pairwise.nil⟩
    · rw [if_neg hle]
      have hlt := (not_le_iff hs hc).mp hle
      have hn := nextPeriod_valid (f := f) hc
      have hadv := nextPeriod_advances hf hc
      obtain ⟨rest, hr, htile, hnil, hall, hpair⟩ := ih (nextPeriod f current) hn (by push_cast at hfuel; omega) (by push_cast at hfuel; omega)
      simp only [hr, Option.map_some]
      by_cases hns : (nextPeriod f current).le stop
      · have hle' := (le_iff_instant hn hs).mp hns
        rw [if_pos hns]
        refine ⟨_, rfl, fun _ => ⟨hc, rfl, ?_, ?_⟩, fun h => absurd h (by omega), fun p hp => ?_, ?_⟩
        · show 0 < (nextPeriod f current).since current
          unfold DateTime.since; omega
        · show Tiles (current.instant + (nextPeriod f current).since current) stop.instant rest
          have : current.instant + (nextPeriod f current).since current = (nextPeriod f current).instant := by
            unfold DateTime.since; omega
          rw [this]; exact htile hle'
        · rcases List.mem_cons.mp hp with hp | hp
          · subst hp
            refine ⟨rfl, le_refl _, ?_⟩
            unfold PeriodValue.finish DateTime.since
            simp only
            omega
          · obtain ⟨h1, h2, h3⟩ := hall p hp
            exact ⟨h1, by omega, h3⟩
        · exact List.Pairwise.cons (fun q hq => (hall q hq).2.1) hpair
      · have hgt := (not_le_iff hn hs).mp hns
        rw [if_neg hns, hnil (by omega)]
        refine ⟨_, rfl, fun _ => ⟨hc, rfl, ?_, ?_⟩, fun h => absurd h (by omega), fun p hp => ?_, List.pairwise_singleton _ _⟩
        · show 0 < stop.since current
          unfold DateTime.since; omega
        · show current.instant + stop.since current = stop.instant
          unfold DateTime.since; omega
        · rcases List.mem_cons.mp hp with hp | hp
          · subst hp
            refine ⟨rfl, le_refl _, ?_⟩
            unfold PeriodValue.finish DateTime.since
            simp only
            omega
          · cases hp

theorem split_spec {f : Frequency} (hf : Civil f = true ∨ ∃ n, 0 < n ∧ f = .days n) {v : PeriodValue} (hv : v.start.Valid)
    (hd : 0 ≤ v.duration) :
    ∃ pieces, split f v = some pieces ∧ Tiles v.start.instant v.finish pieces ∧
      (∀ p ∈ pieces, p.value = v.value ∧ v.start.instant ≤ p.start.instant ∧ p.finish ≤ (nextPeriod f p.start).instant) ∧
      pieces.Pairwise (fun p q => (nextPeriod f p.start).instant ≤ q.start.instant) := by
  have hs := add_valid hv v.duration.toNat
  have he : (v.start.add v.duration.toNat).instant = v.finish := by
    rw [instant_add hv]; unfold PeriodValue.finish; omega
  have hfin : v.finish = v.start.instant + v.duration := rfl
  obtain ⟨pieces, h1, h2, _, h4, h5⟩ := splitLoop_spec hf v.value hs (v.duration.toNat + 1) v.start hv (by rw [he]; push_cast; omega) (by omega)
  refine ⟨pieces, h1, ?_, h4, h5⟩
  rw [he] at h2
  exact h2 (by omega)

theorem isSplit_of {f : Frequency} (hf : Civil f = true) {v : PeriodValue} {pieces : List PeriodValue}
    (ht : Tiles v.start.instant v.finish pieces)
    (hall : ∀ p ∈ pieces, p.value = v.value ∧ v.start.instant ≤ p.start.instant ∧ p.finish ≤ (nextPeriod f p.start).instant)
    (hpair : pieces.Pairwise (fun p q => (nextPeriod f p.start).instant ≤ q.start.instant)) : IsSplit f v pieces := by
  refine ⟨ht, fun p hp => ⟨(hall p hp).1, fun t h1 h2 h3 => ?_⟩, ?_⟩
  · exact (nextPeriod_spec hf (Tiles.mem ht p hp).1 h1 h2).mp (by have := (hall p hp).2.2; omega)
  · refine List.Pairwise.imp_of_mem ?_ hpair
    intro p q hp hq h hs
    have hvp := (Tiles.mem ht p hp).1
    have hvq := (Tiles.mem ht q hq).1
    have h1 := nextPeriod_gt hf hvp
    have := (nextPeriod_spec hf hvp hvq (by omega)).mpr hs
    omega

theorem split_isSplit {f : Frequency} (hf : Civil f = true) {v : PeriodValue} (hv : v.start.Valid) (hd : 0 ≤ v.duration) :
    ∃ pieces, split f v = some pieces ∧ IsSplit f v pieces := by
  obtain ⟨pieces, h1, h2, h3, h4⟩ := split_spec (Or.inl hf) hv hd
  exact ⟨pieces, h1, isSplit_of hf h2 h3 h4⟩

/-! ## Groups -/

/-- Everything emitted while the pieces are processed one after the other. -/
def emit (f : Frequency) (func : AggFunc) : List PeriodValue → List PeriodValue → List PeriodValue × List PeriodValue
  | state, [] => (state, [])
  | state, p :: ps =>
    let (state', o) := processPiece f func state p
    let (state'', out) := emit f func state' ps
    (state'', o.toList ++ out)

theorem emit_append (f : Frequency) (func : AggFunc) (xs : List PeriodValue) : ∀ (state ys : List PeriodValue),
    emit f func state (xs ++ ys) =
      ((emit f func (emit f func state xs).1 ys).1, (emit f func state xs).2 ++ (emit f func (emit f func state xs).1 ys).2) := by
  induction xs with
  | nil => intro state ys; simp [emit]
  | cons p ps ih =>
    intro state ys
    simp only [List.cons_append, emit, ih, List.append_assoc]

theorem processPieces_emit (f : Frequency) (func : AggFunc) (ps : List PeriodValue) : ∀ (state : List PeriodValue) (agg : Option PeriodValue),
    ((agg.toList ++ (emit f func state ps).2).length ≤ 1 →
      processPieces f func state agg ps = some ((emit f func state ps).1, (agg.toList ++ (emit f func state ps).2).head?)) ∧
    (1 < (agg.toList ++ (emit f func state ps).2).length → processPieces f func state agg ps = none) := by
  induction ps with
  | nil =>
    intro state agg
    cases agg <;> simp [processPieces, emit]
  | cons p ps ih =>
    intro state agg
    unfold processPieces
    simp only [emit]
    obtain ⟨s', o, hp⟩ : ∃ s' o, processPiece f func state p = (s', o) := ⟨_, _, rfl⟩
    rw [hp]
    rcases o with _ | av
    · simpa using ih s' agg
    · cases agg with
      | none => simpa using ih s' (some av)
      | some a => constructor <;> simp

theorem inPeriod_next {f : Frequency} (hf : Civil f = true ∨ ∃ n, 0 < n ∧ f = .days n) {a b : DateTime} (ha : a.Valid) (hb : b.Valid)
    (h : a.instant ≤ b.instant) : inPeriod f a b = true ↔ b.instant < (nextPeriod f a).instant := by
  rcases hf with hf | ⟨n, hn, rfl⟩
  · rw [inPeriod_iff hf, nextPeriod_spec hf ha hb h]
  · have hv : (⟨a.date.addDays n, a.ns⟩ : DateTime).Valid := ⟨addDays_valid ha.1 n, ha.2⟩
    unfold inPeriod nextPeriod
    simp only [Bool.and_eq_true, decide_eq_true_eq, Bool.not_eq_true', decide_eq_false_iff_not]
    rw [not_le_iff hv hb, le_iff_instant ha hb]
    exact ⟨fun h => h.2, fun h' => ⟨h, h'⟩⟩

theorem calcPeriod_some (func : AggFunc) (values : List PeriodValue) (hne : values ≠ []) (hd : ∀ v ∈ values, 0 < v.duration) :
    ∃ r, calcPeriod func values = some r := by
  obtain ⟨r, h, _⟩ := C50_periods func values hne hd
  exact ⟨r, h⟩

theorem Group.last_cons (g : Group) : g.values.getLast (by simp [Group.values]) = g.last := by
  obtain ⟨p, rest⟩ := g
  unfold Group.values Group.last
  rcases List.eq_nil_or_concat rest with h | ⟨l, x, h⟩
  · subst h; rfl
  · subst h; simp

/-- What is emitted from a state with values, for values that follow on. -/
theorem emit_spec {f : Frequency} (hf : Civil f = true ∨ ∃ n, 0 < n ∧ f = .days n) (func : AggFunc) (ps : List PeriodValue) :
    ∀ (g : Group) (a m b : Int), Tiles a m g.values → Tiles m b ps →
      (∀ p ∈ g.values, p.start.instant < (nextPeriod f g.first.start).instant) →
      ∃ (closed : List Group) (last : Group) (out : List PeriodValue),
        emit f func g.values ps = (last.values, out) ∧
        (closed.map Group.values).flatten ++ last.values = g.values ++ ps ∧
        List.Forall₂ (fun g r => Records func g r ∧ r.duration = total g.values) closed out ∧
        (∀ g ∈ closed ++ [last], ∀ p ∈ g.values, p.start.instant < (nextPeriod f g.first.start).instant) ∧
        (closed ++ [last]).Pairwise (fun g h => (nextPeriod f g.first.start).instant ≤ h.first.start.instant) ∧
        ∀ h ∈ closed ++ [last], g.first.start.instant ≤ h.first.start.instant := by
  induction ps with
  | nil =>
    intro g a m b hg hps hin
    refine ⟨[], g, [], rfl, by simp, List.Forall₂.nil, fun h hh => ?_, List.pairwise_singleton _ _, fun h hh => ?_⟩
    · rw [List.nil_append, List.mem_singleton] at hh; subst hh; exact hin
    · rw [List.nil_append, List.mem_singleton] at hh; subst hh; exact le_refl _
  | cons p ps ih =>
    intro g a m b hg hps hin
    obtain ⟨hpv, hpi, hpd, hrest⟩ := hps
    have hgv : g.first.start.Valid := (Tiles.mem hg g.first List.mem_cons_self).1
    have hga : g.first.start.instant = a := hg.2.1
    have ham := Tiles.le hg
    have hle : g.first.start.instant ≤ p.start.instant := by omega
    have hstep : processPiece f func g.values p =
        if inPeriod f g.first.start p.start then (g.values ++ [p], none)
        else ([p],
          match calcPeriod func g.values with
          | some a => some { start := g.first.start, duration := p.start.since g.first.start, value := a }
          | none => none) := rfl
    by_cases hc : inPeriod f g.first.start p.start = true
    · rw [if_pos hc] at hstep
      have hg' : Tiles a (m + p.duration) (Group.mk g.first (g.rest ++ [p])).values := by
        have : (Group.mk g.first (g.rest ++ [p])).values = g.values ++ [p] := rfl
        rw [this]
        exact Tiles.append hg ⟨hpv, hpi, hpd, rfl⟩
      obtain ⟨closed, last, out, h1, h2, h3, h4, h5, h6⟩ := ih ⟨g.first, g.rest ++ [p]⟩ a _ b hg' hrest (by
        intro q hq
        have hq' : q ∈ g.values ++ [p] := hq
        rcases List.mem_append.mp hq' with hq' | hq'
        · exact hin q hq'
        · rw [List.mem_singleton] at hq'; subst hq'
          exact (inPeriod_next hf hgv hpv hle).mp hc)
      refine ⟨closed, last, out, ?_, ?_, h3, h4, h5, h6⟩
      · simp only [emit, hstep, Option.toList_none, List.nil_append]
        have : (Group.mk g.first (g.rest ++ [p])).values = g.values ++ [p] := rfl
        rw [← this, h1]
      · rw [h2]
        show (g.first :: (g.rest ++ [p])) ++ ps = (g.first :: g.rest) ++ p :: ps
        simp
    · have hnext : (nextPeriod f g.first.start).instant ≤ p.start.instant := by
        by_contra hlt
        exact hc ((inPeriod_next hf hgv hpv hle).mpr (by omega))
      rw [if_neg hc] at hstep
      obtain ⟨r, hr⟩ := calcPeriod_some func g.values (by simp [Group.values]) (fun v hv => (Tiles.mem hg v hv).2.1)
      obtain ⟨closed, last, out, h1, h2, h3, h4, h5, h6⟩ := ih ⟨p, []⟩ m (m + p.duration) b ⟨hpv, hpi, hpd, rfl⟩ hrest (by
        intro q hq
        have hq' : q ∈ [p] := hq
        rw [List.mem_singleton] at hq'; subst hq'
        exact nextPeriod_advances hf hpv)
      rw [hr] at hstep
      refine ⟨g :: closed, last, ⟨g.first.start, p.start.since g.first.start, r⟩ :: out, ?_, ?_, ?_, ?_, ?_, ?_⟩
      · simp only [emit, hstep, Option.toList_some]
        have : (Group.mk p []).values = [p] := rfl
        rw [← this, h1]
        rfl
      · rw [List.map_cons, List.flatten_cons, List.append_assoc, h2]
        rfl
      · refine List.Forall₂.cons ⟨⟨rfl, hr⟩, ?_⟩ h3
        show p.start.since g.first.start = total g.values
        have := Tiles.total hg
        unfold DateTime.since
        omega
      · intro h hh
        rw [List.cons_append] at hh
        rcases List.mem_cons.mp hh with hh | hh
        · subst hh; exact hin
        · exact h4 h hh
      · rw [List.cons_append]
        exact List.Pairwise.cons (fun h hh => by have := h6 h hh; simp only at this; omega) h5
      · intro h hh
        rw [List.cons_append] at hh
        rcases List.mem_cons.mp hh with hh | hh
        · subst hh; exact le_refl _
        · have := h6 h hh
          simp only at this
          omega

/-! ## Runs -/

/-- One level fed with a list of values. -/
def feed (l : Level) : List PeriodValue → List PeriodValue → Option (List PeriodValue × List PeriodValue)
  | state, [] => some (state, [])
  | state, v :: vs =>
    match processValue l state v with
    | none => none
    | some (state, o) =>
      match feed l state vs with
      | none => none
      | some (state, out) => some (state, o.toList ++ out)

theorem feed_append (l : Level) (xs : List PeriodValue) : ∀ (state ys : List PeriodValue),
    feed l state (xs ++ ys) =
      match feed l state xs with
      | none => none
      | some (s, o) =>
        match feed l s ys with
        | none => none
        | some (s', o') => some (s', o ++ o') := by
  induction xs with
  | nil =>
    intro state ys
    simp only [List.nil_append, feed]
    rcases feed l state ys with _ | ⟨s, o⟩ <;> simp
  | cons v vs ih =>
    intro state ys
    simp only [List.cons_append, feed]
    rcases processValue l state v with _ | ⟨s1, o1⟩
    · rfl
    · simp only [ih]
      rcases feed l s1 vs with _ | ⟨s2, o2⟩
      · rfl
      · simp only
        rcases feed l s2 ys with _ | ⟨s3, o3⟩
        · rfl
        · simp

theorem appendAll_nil (values : List PeriodValue) : appendAll [] [] values = some ([], values) := by
  induction values with
  | nil => rfl
  | cons v vs ih => simp [appendAll, append, ih]

/-- A chain of aggregators works as the outermost one fed with what the rest of the chain yields. -/
theorem appendAll_cons (l : Level) (child : List Level) (values : List PeriodValue) : ∀ (s : List PeriodValue) (cs : List (List PeriodValue))
    (st : List (List PeriodValue)) (out : List PeriodValue), appendAll (l :: child) (s :: cs) values = some (st, out) →
    ∃ cs' mids s', appendAll child cs values = some (cs', mids) ∧ feed l s mids = some (s', out) ∧ st = s' :: cs' := by
  induction values with
  | nil =>
    intro s cs st out h
    simp only [appendAll, Option.some.injEq, Prod.mk.injEq] at h
    exact ⟨cs, [], s, rfl, by rw [← h.2]; rfl, h.1.symm⟩
  | cons v vs ih =>
    intro s cs st out h
    unfold appendAll at h
    simp only [append] at h
    rcases hc : append child cs v with _ | ⟨cs1, _ | a⟩
    · simp only [hc] at h; cases h
    · simp only [hc] at h
      rcases hr : appendAll (l :: child) (s :: cs1) vs with _ | ⟨st1, out1⟩
      · simp only [hr] at h; cases h
      · simp only [hr, Option.some.injEq, Prod.mk.injEq, Option.toList_none, List.nil_append] at h
        obtain ⟨cs', mids, s', h1, h2, h3⟩ := ih s cs1 st1 out1 hr
        refine ⟨cs', mids, s', ?_, by rw [← h.2]; exact h2, by rw [← h.1]; exact h3⟩
        simp only [appendAll, hc, h1, Option.toList_none, List.nil_append]
    · simp only [hc] at h
      rcases hp : processValue l s a with _ | ⟨s1, o⟩
      · simp only [hp] at h; cases h
      · simp only [hp] at h
        rcases hr : appendAll (l :: child) (s1 :: cs1) vs with _ | ⟨st1, out1⟩
        · simp only [hr] at h; cases h
        · simp only [hr, Option.some.injEq, Prod.mk.injEq] at h
          obtain ⟨cs', mids, s', h1, h2, h3⟩ := ih s1 cs1 st1 out1 hr
          refine ⟨cs', a :: mids, s', ?_, ?_, by rw [← h.1]; exact h3⟩
          · simp only [appendAll, hc, h1, Option.toList_some, List.singleton_append]
          · simp only [feed, hp, h2]
            rw [h.2]

/-- Feeding an aggregator with a frequency emits what its pieces emit. -/
theorem feed_emit {f : Frequency} (hf : Civil f = true ∨ ∃ n, 0 < n ∧ f = .days n) (func : AggFunc) (values : List PeriodValue)
    (hv : ∀ v ∈ values, v.start.Valid ∧ 0 ≤ v.duration) : ∀ (state s' out : List PeriodValue),
    feed ⟨some f, func⟩ state values = some (s', out) →
    ∃ parts, List.Forall₂ (fun v part => split f v = some part) values parts ∧ emit f func state parts.flatten = (s', out) := by
  induction values with
  | nil =>
    intro state s' out h
    simp only [feed, Option.some.injEq] at h
    exact ⟨[], List.Forall₂.nil, by rw [← h]; rfl⟩
  | cons v vs ih =>
    intro state s' out h
    obtain ⟨pieces, hp, _⟩ := split_spec hf (hv v List.mem_cons_self).1 (hv v List.mem_cons_self).2
    obtain ⟨hle, hgt⟩ := processPieces_emit f func pieces state none
    simp only [Option.toList_none, List.nil_append] at hle hgt
    simp only [feed, processValue, hp] at h
    by_cases hl : (emit f func state pieces).2.length ≤ 1
    · rw [hle hl] at h
      simp only at h
      rcases hr : feed ⟨some f, func⟩ (emit f func state pieces).1 vs with _ | ⟨s1, o1⟩
      · simp only [hr] at h; cases h
      · simp only [hr, Option.some.injEq, Prod.mk.injEq] at h
        obtain ⟨parts, h1, h2⟩ := ih (fun x hx => hv x (List.mem_cons_of_mem _ hx)) _ s1 o1 hr
        refine ⟨pieces :: parts, List.Forall₂.cons hp h1, ?_⟩
        rw [List.flatten_cons, emit_append, h2, ← h.1, ← h.2]
        congr 2
        clear hle hgt h
        generalize (emit f func state pieces).2 = L at hl
        rcases L with _ | ⟨x, _ | ⟨y, t⟩⟩
        · rfl
        · rfl
        · simp at hl
    · rw [hgt (by omega)] at h; cases h

theorem parts_tile {f : Frequency} (hf : Civil f = true ∨ ∃ n, 0 < n ∧ f = .days n) {values : List PeriodValue} : ∀ {a b : Int}
    {parts : List (List PeriodValue)}, Tiles a b values → List.Forall₂ (fun v part => split f v = some part) values parts →
    Tiles a b parts.flatten := by
  induction values with
  | nil => intro a b parts h hp; cases hp; exact h
  | cons v vs ih =>
    intro a b parts h hp
    cases hp with
    | cons h1 h2 =>
      obtain ⟨pieces, hs, ht, _⟩ := split_spec hf h.1 (le_of_lt h.2.2.1)
      rw [h1] at hs
      cases hs
      rw [List.flatten_cons]
      refine Tiles.append ?_ (ih h.2.2.2 h2)
      have : v.finish = a + v.duration := by unfold PeriodValue.finish; rw [h.2.1]
      rw [← this, ← h.2.1]
      exact ht

/-- What an aggregator with a frequency has emitted and keeps after being fed with values that tile a span. -/
theorem feed_spec {f : Frequency} (hf : Civil f = true ∨ ∃ n, 0 < n ∧ f = .days n) (func : AggFunc) {values : List PeriodValue} {a b : Int}
    (ht : Tiles a b values) (hne : values ≠ []) {s' out : List PeriodValue} (h : feed ⟨some f, func⟩ [] values = some (s', out)) :
    ∃ (parts : List (List PeriodValue)) (closed : List Group) (last : Group),
      List.Forall₂ (fun v part => split f v = some part) values parts ∧ Tiles a b parts.flatten ∧ s' = last.values ∧
      (closed.map Group.values).flatten ++ last.values = parts.flatten ∧
      List.Forall₂ (fun g r => Records func g r ∧ r.duration = total g.values) closed out ∧
      (∀ g ∈ closed ++ [last], ∀ p ∈ g.values, p.start.instant < (nextPeriod f g.first.start).instant) ∧
      (closed ++ [last]).Pairwise (fun g h => (nextPeriod f g.first.start).instant ≤ h.first.start.instant) := by
  obtain ⟨parts, h1, h2⟩ := feed_emit hf func values (fun v hv => ⟨(Tiles.mem ht v hv).1, le_of_lt (Tiles.mem ht v hv).2.1⟩) [] s' out h
  have htile := parts_tile hf ht h1
  rcases hp : parts.flatten with _ | ⟨p, ps⟩
  · exfalso
    rw [hp] at htile
    have hab : a = b := htile
    cases values with
    | nil => exact hne rfl
    | cons v vs =>
      have := Tiles.le ht.2.2.2
      have := ht.2.2.1
      omega
  · have htile' := htile
    rw [hp] at h2 htile'
    have e : emit f func [] (p :: ps) = emit f func [p] ps := by simp [emit, processPiece]
    rw [e] at h2
    obtain ⟨closed, last, out', h3, h4, h5, h6, h7, _⟩ := emit_spec hf func ps ⟨p, []⟩ a (a + p.duration) b
      ⟨htile'.1, htile'.2.1, htile'.2.2.1, rfl⟩ htile'.2.2.2 (by
        intro q hq
        have hq' : q ∈ [p] := hq
        rw [List.mem_singleton] at hq'; subst hq'
        exact nextPeriod_advances hf htile'.1)
    have h3' : emit f func [p] ps = (last.values, out') := h3
    rw [h2] at h3'
    simp only [Prod.mk.injEq] at h3'
    refine ⟨parts, closed, last, h1, htile, h3'.1, ?_, by rw [h3'.2]; exact h5, h6, h7⟩
    rw [h4, hp]
    rfl

theorem forall2_tile {func : AggFunc} {closed : List Group} : ∀ {out : List PeriodValue} {a m : Int},
    List.Forall₂ (fun g r => Records func g r ∧ r.duration = total g.values) closed out →
    Tiles a m (closed.map Group.values).flatten → Tiles a m out := by
  induction closed with
  | nil => intro out a m h ht; cases h; exact ht
  | cons g gs ih =>
    intro out a m h ht
    cases h with
    | @cons _ r _ rs h1 h2 =>
      rw [List.map_cons, List.flatten_cons] at ht
      obtain ⟨k, h3, h4⟩ := Tiles.split ht
      obtain ⟨⟨hs, _⟩, hd⟩ := h1
      have hk := Tiles.total h3
      have hfirst : g.first.start.Valid ∧ g.first.start.instant = a ∧ 0 < g.first.duration ∧ Tiles (a + g.first.duration) k g.rest := h3
      refine ⟨by rw [hs]; exact hfirst.1, by rw [hs]; exact hfirst.2.1, ?_, ?_⟩
      · have := Tiles.le hfirst.2.2.2
        have := hfirst.2.2.1
        rw [hd]; omega
      · rw [hd, ← hk]; exact ih h2 h4

theorem calcAggregation_spec (func : AggFunc) (g : Group) {a m : Int} (ht : Tiles a m g.values) :
    ∃ r, calcAggregation func g.values = some r ∧ Records func g r ∧ r.duration = total g.values - g.last.duration := by
  obtain ⟨x, hx⟩ := calcPeriod_some func g.values (by simp [Group.values]) (fun v hv => (Tiles.mem ht v hv).2.1)
  have hl := Group.last_cons g
  refine ⟨⟨g.first.start, g.last.start.since g.first.start, x⟩, ?_, ⟨rfl, hx⟩, ?_⟩
  · show calcAggregation func (g.first :: g.rest) = _
    have hx' : calcPeriod func (g.first :: g.rest) = some x := hx
    have hl' : (g.first :: g.rest).getLast (by simp) = g.last := hl
    simp only [calcAggregation, hx', hl']
  · show g.last.start.since g.first.start = total g.values - g.last.duration
    have hsplit : g.values = g.values.dropLast ++ [g.last] := by
      rw [← hl]; exact (List.dropLast_append_getLast _).symm
    have ht' := ht
    rw [hsplit] at ht'
    obtain ⟨k, _, h2⟩ := Tiles.split ht'
    have h3 := Tiles.total ht
    have h4 : g.last.start.instant = k := h2.2.1
    have h5 : k + g.last.duration = m := h2.2.2.2
    have h6 : g.first.start.instant = a := ht.2.1
    unfold DateTime.since
    omega

theorem nextPeriod_congr {f : Frequency} {a b : DateTime} (ha : a.Valid) (hb : b.Valid) (h : SamePeriod f a b) : nextPeriod f a = nextPeriod f b := by
  obtain ⟨⟨y, m, d⟩, n⟩ := a
  obtain ⟨⟨y', m', d'⟩, n'⟩ := b
  cases f with
  | monthly =>
    have h1 : y = y' := h.1
    have h2 : m = m' := h.2
    subst h1; subst h2; rfl
  | annual =>
    have h1 : y = y' := h
    subst h1
    have h2 : m ≤ 12 := ha.1.2.1
    have h3 : m' ≤ 12 := hb.1.2.1
    unfold nextPeriod Date.addMonths
    simp only [DateTime.mk.injEq, Date.mk.injEq, and_true]
    omega
  | days n => exact absurd h id

/-! ## The length of a period -/

/-- The shortest period. -/
def shortest : Frequency → Int
  | .monthly => 28 * nsPerDay
  | .annual => 365 * nsPerDay
  | .days n => n * nsPerDay

theorem dayNumber_first_next {y : Int} {m : Nat} (h1 : 1 ≤ m) (h2 : m ≤ 12) :
    Date.dayNumber ⟨y + ((m - 1 + 1) / 12 : Nat), (m - 1 + 1) % 12 + 1, 1⟩ = Date.dayNumber ⟨y, m, 1⟩ + daysInMonth y m := by
  have e : m - 1 + 1 = m := by omega
  rw [e]
  by_cases hm : m = 12
  · subst hm
    have e1 : ((12 / 12 : Nat) : Int) = 1 := rfl
    have e2 : 12 % 12 + 1 = 1 := rfl
    rw [e1, e2]
    unfold Date.dayNumber Date.dayOfYear
    simp only
    rw [daysBeforeYear_succ]
    have h13 := daysBeforeMonth_13 y
    have e3 : daysBeforeMonth y 13 = daysBeforeMonth y 12 + daysInMonth y 12 := rfl
    have e4 : daysBeforeMonth (y + 1) 1 = 0 := rfl
    omega
  · have e0 : m / 12 = 0 := by omega
    have e1 : ((m / 12 : Nat) : Int) = 0 := by rw [e0]; rfl
    have e2 : m % 12 + 1 = m + 1 := by omega
    rw [e1, e2, Int.add_zero]
    unfold Date.dayNumber Date.dayOfYear
    simp only
    have e3 : daysBeforeMonth y (m + 1) = daysBeforeMonth y m + daysInMonth y m := rfl
    omega

/-- A period that starts where another ends is not shorter than the shortest. -/
theorem period_length {f : Frequency} {t : DateTime} (ht : t.Valid) :
    (nextPeriod f t).instant + shortest f ≤ (nextPeriod f (nextPeriod f t)).instant := by
  have hv := nextPeriod_valid (f := f) ht
  cases f with
  | monthly =>
    obtain ⟨⟨h1, h2, _, _⟩, _⟩ := hv
    obtain ⟨y, m, hd⟩ : ∃ y m, nextPeriod .monthly t = ⟨⟨y, m, 1⟩, 0⟩ := ⟨_, _, rfl⟩
    rw [hd] at h1 h2 ⊢
    have e : nextPeriod .monthly ⟨⟨y, m, 1⟩, 0⟩ = ⟨⟨y + ((m - 1 + 1) / 12 : Nat), (m - 1 + 1) % 12 + 1, 1⟩, 0⟩ := rfl
    rw [e]
    simp only at h1 h2
    unfold DateTime.instant
    simp only [shortest]
    rw [dayNumber_first_next h1 h2, Int.add_mul]
    have h3 : (28 : Int) * nsPerDay ≤ (daysInMonth y m : Int) * nsPerDay :=
      Int.mul_le_mul_of_nonneg_right (by exact_mod_cast daysInMonth_pos h1 h2) (by decide)
    omega
  | annual =>
    obtain ⟨y, hd⟩ : ∃ y, nextPeriod .annual t = ⟨⟨y, 1, 1⟩, 0⟩ := ⟨_, rfl⟩
    rw [hd]
    have e : nextPeriod .annual ⟨⟨y, 1, 1⟩, 0⟩ = ⟨⟨y + 1, 1, 1⟩, 0⟩ := by
      simp [nextPeriod, Date.addMonths]
    rw [e]
    unfold DateTime.instant Date.dayNumber
    simp only [shortest]
    rw [daysBeforeYear_succ]
    have e1 : (Date.mk (y + 1) 1 1).dayOfYear = 1 := rfl
    have e2 : (Date.mk y 1 1).dayOfYear = 1 := rfl
    rw [e1, e2]
    have h3 : (365 : Int) ≤ daysInYear y := by unfold daysInYear; split <;> decide
    have h4 : (365 : Int) * nsPerDay ≤ (daysInYear y : Int) * nsPerDay := Int.mul_le_mul_of_nonneg_right h3 (by decide)
    rw [Int.add_mul, Int.add_mul, Int.add_mul]
    omega
  | days n =>
    show (⟨t.date.addDays n, t.ns⟩ : DateTime).instant + n * nsPerDay ≤ _
    have e : nextPeriod (.days n) (nextPeriod (.days n) t) = ⟨(t.date.addDays n).addDays n, t.ns⟩ := rfl
    rw [e]
    have hv' : (⟨t.date.addDays n, t.ns⟩ : DateTime).Valid := hv
    exact le_of_eq (instant_addDays hv' n).symm

/-- A state of an aggregator that has been fed up to the moment `m`. -/
def Fed (f : Frequency) (state : List PeriodValue) (m : Int) : Prop :=
  state = [] ∨ ∃ (g : Group) (a : Int), state = g.values ∧ Tiles a m g.values ∧ m ≤ (nextPeriod f g.first.start).instant

theorem fed_step {f : Frequency} (hf : Civil f = true) (func : AggFunc) {state : List PeriodValue} {m : Int} (h : Fed f state m)
    {p : PeriodValue} (hv : p.start.Valid) (hm : p.start.instant = m) (hd : 0 < p.duration)
    (hfin : p.finish ≤ (nextPeriod f p.start).instant) :
    Fed f (processPiece f func state p).1 (m + p.duration) ∧
      ((processPiece f func state p).2 ≠ none → ∃ t, t.Valid ∧ p.start = nextPeriod f t) := by
  have hsingle : Fed f [p] (m + p.duration) := by
    refine Or.inr ⟨⟨p, []⟩, m, rfl, ⟨hv, hm, hd, rfl⟩, ?_⟩
    unfold PeriodValue.finish at hfin
    show m + p.duration ≤ (nextPeriod f p.start).instant
    omega
  rcases h with h | ⟨g, a, h, ht, hle⟩
  · subst h
    exact ⟨hsingle, fun h => absurd rfl h⟩
  · subst h
    have hgv := (Tiles.mem ht g.first List.mem_cons_self).1
    have hga : g.first.start.instant = a := ht.2.1
    have ham := Tiles.le ht
    have hstep : processPiece f func g.values p =
        if inPeriod f g.first.start p.start then (g.values ++ [p], none)
        else ([p],
          match calcPeriod func g.values with
          | some a => some { start := g.first.start, duration := p.start.since g.first.start, value := a }
          | none => none) := rfl
    by_cases hc : inPeriod f g.first.start p.start = true
    · rw [if_pos hc] at hstep
      rw [hstep]
      refine ⟨Or.inr ⟨⟨g.first, g.rest ++ [p]⟩, a, rfl, ?_, ?_⟩, fun h => absurd rfl h⟩
      · exact Tiles.append ht ⟨hv, hm, hd, rfl⟩
      · show m + p.duration ≤ (nextPeriod f g.first.start).instant
        rw [nextPeriod_congr hgv hv ((inPeriod_iff hf _ _).mp hc)]
        unfold PeriodValue.finish at hfin
        omega
    · rw [if_neg hc] at hstep
      rw [hstep]
      refine ⟨hsingle, fun _ => ⟨g.first.start, hgv, ?_⟩⟩
      apply instant_inj hv (nextPeriod_valid hgv)
      have : (nextPeriod f g.first.start).instant ≤ p.start.instant := by
        by_contra hlt
        exact hc ((inPeriod_next (Or.inl hf) hgv hv (by omega)).mpr (by omega))
      omega

theorem fed_value {f : Frequency} (hf : Civil f = true) (func : AggFunc) {state : List PeriodValue} {m : Int} (h : Fed f state m)
    {v : PeriodValue} (hv : v.start.Valid) (hm : v.start.instant = m) (hd : 0 < v.duration) (hlen : v.duration ≤ shortest f) :
    ∃ s o, processValue ⟨some f, func⟩ state v = some (s, o) ∧ Fed f s (m + v.duration) := by
  obtain ⟨pieces, h1, h2, h3, h4⟩ := split_spec (Or.inl hf) hv (le_of_lt hd)
  obtain ⟨hle, _⟩ := processPieces_emit f func pieces state none
  simp only [Option.toList_none, List.nil_append] at hle
  simp only [processValue, h1]
  have hfin : v.finish = m + v.duration := by unfold PeriodValue.finish; rw [hm]
  rw [hfin, hm] at h2
  have key : (emit f func state pieces).2.length ≤ 1 ∧ Fed f (emit f func state pieces).1 (m + v.duration) := by
    rcases pieces with _ | ⟨p, _ | ⟨q, _ | ⟨r, rest⟩⟩⟩
    · have : m = m + v.duration := h2
      omega
    · have hp := fed_step hf func h h2.1 h2.2.1 h2.2.2.1 (h3 p (by simp)).2.2
      have hend : m + p.duration = m + v.duration := h2.2.2.2
      rw [hend] at hp
      simp only [emit, List.append_nil]
      refine ⟨?_, hp.1⟩
      rcases (processPiece f func state p).2 with _ | x <;> simp
    · have hp := fed_step hf func h h2.1 h2.2.1 h2.2.2.1 (h3 p (by simp)).2.2
      have hq2 : Tiles (m + p.duration) (m + v.duration) [q] := h2.2.2.2
      have hq := fed_step hf func hp.1 hq2.1 hq2.2.1 hq2.2.2.1 (h3 q (by simp)).2.2
      have hend : m + p.duration + q.duration = m + v.duration := hq2.2.2.2
      rw [hend] at hq
      have hnone : (processPiece f func state p).2 = none := by
        by_contra hc
        obtain ⟨t, htv, hpt⟩ := hp.2 hc
        have hlen2 := period_length (f := f) htv
        rw [← hpt] at hlen2
        have hpq := List.rel_of_pairwise_cons h4 (List.mem_singleton.mpr rfl)
        have := hq2.2.1
        have := hq2.2.2.1
        have := h2.2.1
        omega
      simp only [emit, List.append_nil, hnone, Option.toList_none, List.nil_append]
      refine ⟨?_, hq.1⟩
      rcases (processPiece f func (processPiece f func state p).1 q).2 with _ | x <;> simp
    · exfalso
      have hq2 : Tiles (m + p.duration) (m + v.duration) (q :: r :: rest) := h2.2.2.2
      have hr2 : Tiles (m + p.duration + q.duration) (m + v.duration) (r :: rest) := hq2.2.2.2
      have hpf := (h3 p (by simp)).2.2
      have hpq := List.rel_of_pairwise_cons h4 (show q ∈ q :: r :: rest by simp)
      have hqr := List.rel_of_pairwise_cons (List.Pairwise.of_cons h4) (show r ∈ r :: rest by simp)
      have hqp : q.start = nextPeriod f p.start := by
        apply instant_inj hq2.1 (nextPeriod_valid h2.1)
        have := hq2.2.1
        have := h2.2.1
        unfold PeriodValue.finish at hpf
        omega
      have hlen2 := period_length (f := f) h2.1
      rw [← hqp] at hlen2
      have h5 := Tiles.le hr2.2.2.2
      have h6 := hr2.2.1
      have h7 := hr2.2.2.1
      have h8 := hq2.2.1
      have h9 := h2.2.2.1
      omega
  exact ⟨_, _, hle key.1, key.2⟩

theorem feed_ok {f : Frequency} (hf : Civil f = true) (func : AggFunc) (values : List PeriodValue) : ∀ (state : List PeriodValue) (m b : Int),
    Fed f state m → Tiles m b values → (∀ v ∈ values, v.duration ≤ shortest f) → ∃ r, feed ⟨some f, func⟩ state values = some r := by
  induction values with
  | nil => intro state m b _ _ _; exact ⟨_, rfl⟩
  | cons v vs ih =>
    intro state m b h ht hlen
    obtain ⟨s, o, h1, h2⟩ := fed_value hf func h ht.1 ht.2.1 ht.2.2.1 (hlen v List.mem_cons_self)
    obtain ⟨⟨s', out⟩, h3⟩ := ih s _ b h2 ht.2.2.2 (fun x hx => hlen x (List.mem_cons_of_mem _ hx))
    refine ⟨(s', o.toList ++ out), ?_⟩
    simp only [feed, h1, h3]

theorem appendAll_single (l : Level) (values : List PeriodValue) : ∀ (s : List PeriodValue),
    appendAll [l] [s] values =
      match feed l s values with
      | none => none
      | some (s', out) => some ([s'], out) := by
  induction values with
  | nil => intro s; rfl
  | cons v vs ih =>
    intro s
    simp only [appendAll, append, feed]
    rcases processValue l s v with _ | ⟨s1, o⟩
    · rfl
    · simp only [ih]
      rcases feed l s1 vs with _ | ⟨s2, out⟩ <;> rfl

end Verif.Agg
