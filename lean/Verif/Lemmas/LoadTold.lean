import Verif.Lemmas.LoadHolds

/-! # Each parameter of a document -/

namespace Verif.Load

open Verif.Params Verif.Kinds

variable {W : Type} {A : Args W} {ps : List (Param W)} {n : Nat} {h : Record W}

/-! ## Parameters with a memory -/

theorem isOn_congr {on off on' off' : Nat → Nat → Prop} (h1 : ∀ t < n, ∀ i, on t i ↔ on' t i)
    (h2 : ∀ t < n, ∀ i, off t i ↔ off' t i) {t : Nat} (ht : t < n) : IsOn on off t ↔ IsOn on' off' t := by
  have key : ∀ {a b a' b' : Nat → Nat → Prop}, (∀ t < n, ∀ i, a t i ↔ a' t i) → (∀ t < n, ∀ i, b t i ↔ b' t i) →
      IsOn a b t → IsOn a' b' t := by
    rintro a b a' b' h1 h2 ⟨s, hs, ⟨i, h3, h4⟩, h5⟩
    refine ⟨s, hs, ⟨i, (h1 s (by omega) i).1 h3, h4⟩, fun r hr hrt => ?_⟩
    rcases h5 r hr hrt with ⟨i, h6, h7⟩ | ⟨i, h6, h7⟩
    · exact .inl ⟨i, (h1 r (by omega) i).1 h6, h7⟩
    · exact .inr ⟨i, (h2 r (by omega) i).1 h6, h7⟩
  exact ⟨key h1 h2, key (fun t ht i => (h1 t ht i).symm) fun t ht i => (h2 t ht i).symm⟩

theorem switched_congr {value : Nat → Val} {on off on' off' : Nat → Nat → Prop} (h1 : ∀ t < n, ∀ i, on t i ↔ on' t i)
    (h2 : ∀ t < n, ∀ i, off t i ↔ off' t i) (hs : Switched n value on off) : Switched n value on' off' := by
  intro t ht
  obtain ⟨⟨i, h3, h4⟩, h5, h6⟩ := hs t ht
  rw [isOn_congr h1 h2 ht] at h5 h6
  refine ⟨⟨i, (h1 t ht i).1 h3, fun hi => ?_⟩, h5, h6⟩
  rintro ⟨s, rfl, hs⟩
  rw [← isOn_congr h1 h2 (by omega)] at hs
  obtain ⟨j, hj⟩ := h4 hi ⟨s, rfl, hs⟩
  exact ⟨j, (h2 _ ht j).1 hj⟩

theorem thresholded_congr {value : Nat → Val} {p : Temporal.Predicate} {r : Bool} {x y x' y' : Nat → ℚ → Prop}
    (h1 : ∀ t < n, ∀ i, x t i ↔ x' t i) (h2 : ∀ t < n, ∀ i, y t i ↔ y' t i) (hs : Thresholded n value p r x y) :
    Thresholded n value p r x' y' := by
  intro t ht
  have h3 : (∃ s < t, ∃ a b, x s a ∧ y s b ∧ Meets p a b) ↔ ∃ s < t, ∃ a b, x' s a ∧ y' s b ∧ Meets p a b := by
    constructor
    · rintro ⟨s, hs, a, b, h3, h4, h5⟩; exact ⟨s, hs, a, b, (h1 s (by omega) a).1 h3, (h2 s (by omega) b).1 h4, h5⟩
    · rintro ⟨s, hs, a, b, h3, h4, h5⟩; exact ⟨s, hs, a, b, (h1 s (by omega) a).2 h3, (h2 s (by omega) b).2 h4, h5⟩
  have h4 := hs t ht
  rw [h3] at h4
  rcases h4 with h4 | ⟨h4, a, b, h5, h6, h7⟩
  · exact .inl h4
  · exact .inr ⟨h4, a, b, (h1 t ht a).1 h5, (h2 t ht b).1 h6, h7⟩

theorem first_swap {α β : Type} {R : α → β → Prop} {p : Temporal.Predicate} {a : ℚ} {y : β → ℚ → Prop} {y' : α → ℚ → Prop}
    {as : List α} {bs : List β} (hr : List.Forall₂ R as bs) (hi : ∀ a b, R a b → b ∈ bs → ∀ q, y b q → y' a q) {i : Nat}
    (hf : First p a y bs i) : First p a y' as i := by
  obtain ⟨h1, h2, h3⟩ := hf
  have hl := hr.length_eq
  have hget : ∀ {j : Nat} {s : α}, as[j]? = some s → ∃ b, bs[j]? = some b ∧ R s b ∧ b ∈ bs := by
    intro j s hs
    obtain ⟨hj, rfl⟩ := List.getElem?_eq_some_iff.1 hs
    have hj' : j < bs.length := by omega
    exact ⟨bs[j], List.getElem?_eq_getElem hj', hr.get hj hj', List.getElem_mem hj'⟩
  refine ⟨by omega, fun j hj s hs => ?_, fun s hs => ?_⟩
  · obtain ⟨b, h4, h5, h6⟩ := hget hs
    obtain ⟨q, h7, h8⟩ := h2 j hj b h4
    exact ⟨q, hi s b h5 h6 q h7, h8⟩
  · obtain ⟨b, h4, h5, h6⟩ := hget hs
    obtain ⟨q, h7, h8⟩ := h3 b h4
    exact ⟨q, hi s b h5 h6 q h7, h8⟩

theorem positioned_mono {value : Nat → Val} {r : Bool} {x y : Nat → Nat → Prop} (h1 : ∀ t < n, ∀ i, x t i → y t i)
    (hs : Positioned n value r x) : Positioned n value r y := by
  obtain ⟨i, h2, h3⟩ := hs
  exact ⟨i, fun t ht => h1 t ht _ (h2 t ht), h3⟩

/-- The value before the solver of parameters with a memory. -/
theorem Live.early_eq (L : Live A ps n h) {c : Nat} {k : Kind W} (hm : (⟨c, k⟩ : Param W) ∈ ps)
    (hs : k.style = .general true .none ∨ k.style = .simpleOr .hook) :
    ∃ form, Holds (builders ps) A.env h n c form k ∧ ∀ t, early h c form t = valueOf (builders ps) h c t := by
  obtain ⟨form, h1, h2⟩ := L.form hm
  refine ⟨form, L.holds _ hm _ h1, fun t => ?_⟩
  have h3 : form = .simple ∨ ∃ a, form = .general true a := by
    rcases hs with hs | hs
    · exact .inr ⟨_, one_form hs h1⟩
    · exact (hook_forms hs h1).imp_right fun h => ⟨_, h⟩
  simp only at h2
  rcases h3 with rfl | ⟨a, rfl⟩
  · simp [early, valueOf, h2, Form.kind]
  · simp [early, valueOf, h2, Form.kind]

/-! ## Values that are returned -/

theorem Live.returned (L : Live A ps n h) {o : Option String} {name : String} {k : Kind W} {returned : Option (List SMetric)}
    (hm : MadeReturned A ps o name k returned) {Is : (Nat → Val) → Prop}
    (hi : ∀ c, (⟨c, k⟩ : Param W) ∈ ps → Is (valueOf (builders ps) h c)) :
    Returns (fun t => SNum A (storyOf A (builders ps) h) .early t o) n ((storyOf A (builders ps) h).before o name) returned Is := by
  cases returned with
  | none => exact hi _ hm
  | some ms =>
    obtain ⟨h1, vs, h2, h3⟩ := hm
    refine ⟨_, hi _ h1, fun t ht => ?_⟩
    obtain ⟨i, ⟨v, h4, h5⟩, h6, q, h7, h8⟩ := (L.flat h3 trivial).1 (by simp [Kind.phase]) t ht
    have hg : ∃ sh, Gives (builders ps) ⟨.index (A.code (hidden name)) .before, .before⟩ sh :=
      L.gives h3 (List.mem_cons_self ..) rfl
    have h4' : v = valueOf (builders ps) h (A.code (hidden name)) t :=
      (means_iff L.nodup (.inr rfl) hg (side := .early) (by simp) t v).1 h4
    rw [h4'] at h5
    subst h5
    have hl := h2.length_eq
    refine ⟨ms[(valueOf (builders ps) h (A.code (hidden name)) t).idx], q, List.getElem?_eq_getElem (by omega), ?_, h8⟩
    exact (L.num h3 (h2.get (by omega) h6) (by simp [Kind.sources]) (side := .early) (by simp [Kind.phase]) ht q).1 h7

/-! ## All parameters -/

theorem of_mem {α : Type} {a : α} {as bs : List α} (h : ∀ x ∈ as, x ∈ bs) : ∀ x ∈ as, x ∈ a :: bs :=
  fun x hx => List.mem_cons_of_mem _ (h x hx)

theorem Live.told (L : Live A ps n h) {o : Option String} {name : String} {k : SKind} (hm : Made A ps o name k) :
    SHolds A (storyOf A (builders ps) h) n o name k := by
  cases k with
  | constant value =>
    obtain ⟨_, ⟨q, h1, rfl⟩, hm⟩ := hm
    exact ⟨fun _ t ht => ⟨q, h1, (L.flat hm trivial).1 (by simp [Kind.phase]) t ht⟩, fun hp => absurd rfl hp⟩
  | constantScenario values group =>
    obtain ⟨_, ⟨qs, i, q, h1, h2, h3, rfl⟩, hm⟩ := hm
    exact ⟨fun _ t ht => ⟨qs, i, q, h1, h2, h3, (L.flat hm trivial).1 (by simp [Kind.phase]) t ht⟩, fun hp => absurd rfl hp⟩
  | controlCurveInterpolated storage curves values =>
    obtain ⟨_, ⟨x, cs, vs, h1, h2, h3, rfl⟩, hm⟩ := hm
    refine ⟨fun _ t ht => ?_, fun hp => absurd rfl hp⟩
    obtain ⟨xs, q, h4, h5, h6⟩ := (L.flat hm trivial).1 (by simp [Kind.phase, interpolatedKind]) t ht
    have h7 := tells_nums (L.tells hm rfl ht (.cons h1 (List.rel_append h2 h3)) (fun s hs => hs) h4)
    beta_reduce at h5 h7
    cases hx : nums xs with
    | nil => rw [hx] at h5; cases h5
    | cons y ys =>
      rw [hx] at h5 h7
      cases h7 with
      | cons h8 h9 =>
        obtain ⟨h10, h11⟩ := split_tells h9 h2.length_eq
        simp only [toOption_ok] at h5
        cases y with
        | none => cases h5
        | some a =>
          obtain ⟨i, lo, hi, l, u, k1, k2, k3, rfl⟩ := interpolatedFrom_ok h5
          have hl := h10.length_eq
          have hv := h11.length_eq
          rcases Nat.lt_or_ge i curves.length with hlt | hge
          · obtain ⟨e1, e2⟩ := k2 (by omega)
            rw [Nat.zero_add] at e1 e2
            obtain ⟨ma, k4, k5⟩ := tells_at h11 e1
            obtain ⟨mb, k6, k7⟩ := tells_at h11 e2
            exact ⟨a, i, lo, hi, mb, ma, l, u, (h8 a).1 rfl, band_of h10 k1, fun _ => ⟨k6, k4⟩, fun he => by omega, k7, k5, h6⟩
          · have hi' : i = (List.take cs.length ys).length := by
              have := k1.1.1
              omega
            obtain ⟨e0, e1, e2⟩ := k3 hi'
            obtain ⟨ma, k4, k5⟩ := tells_at h11 e1
            obtain ⟨mb, k6, k7⟩ := tells_at h11 e2
            rw [← hv] at k4 k6 e0
            exact ⟨a, i, lo, hi, mb, ma, l, u, (h8 a).1 rfl, band_of h10 k1, fun _ => by omega, fun _ => ⟨e0, k6, k4⟩, k7, k5, h6⟩
  | aggregated func metrics p =>
    obtain ⟨_, ⟨ss, h1, rfl⟩, hm⟩ := hm
    constructor
    · intro hp t ht
      obtain ⟨qs, q, h2, h3⟩ := (L.flat hm trivial).1 hp t ht
      exact ⟨qs, q, forall_swap h1 (fun m s h4 h5 q => (L.num hm h4 h5 (side := .early) (fun _ => hp) ht q).1) h2, h3⟩
    · intro hp t ht
      obtain ⟨qs, q, h2, h3⟩ := (L.flat hm trivial).2 hp t ht
      exact ⟨qs, q, forall_swap h1 (fun m s h4 h5 q => (L.num hm h4 h5 (side := .late) (by simp) ht q).1) h2, h3⟩
  | aggregatedIndex func metrics p =>
    obtain ⟨_, ⟨ss, h1, rfl⟩, hm⟩ := hm
    constructor
    · intro hp t ht
      obtain ⟨qs, q, h2, h3⟩ := (L.flat hm trivial).1 hp t ht
      exact ⟨qs, q, forall_swap h1 (fun m s h4 h5 q => (L.idx hm h4 h5 (side := .early) (fun _ => hp) q).1) h2, h3⟩
    · intro hp t ht
      obtain ⟨qs, q, h2, h3⟩ := (L.flat hm trivial).2 hp t ht
      exact ⟨qs, q, forall_swap h1 (fun m s h4 h5 q => (L.idx hm h4 h5 (side := .late) (by simp) q).1) h2, h3⟩
  | asymmetric on off =>
    obtain ⟨_, ⟨x, y, h1, h2, rfl⟩, hm⟩ := hm
    obtain ⟨form, h3, h4⟩ := L.early_eq hm (.inl rfl)
    have h3' : Switched n (early h _ form) _ _ := h3
    rw [funext h4] at h3'
    exact switched_congr (fun t ht i => L.idx hm h1 (by simp [Kind.sources]) (side := .early) (by simp [Kind.phase]) i)
      (fun t ht i => L.idx hm h2 (by simp [Kind.sources]) (side := .early) (by simp [Kind.phase]) i) h3'
  | controlCurvePiecewise storage curves values maximum minimum =>
    obtain ⟨_, ⟨x, cs, h1, h2, rfl⟩, hm⟩ := hm
    refine ⟨fun _ t ht => ?_, fun hp => absurd rfl hp⟩
    obtain ⟨xs, q, h4, h5, h6⟩ := (L.flat hm trivial).1 (by simp [Kind.phase, piecewiseKind]) t ht
    have h7 := tells_nums (L.tells hm rfl ht (.cons h1 h2) (fun s hs => hs) h4)
    beta_reduce at h5 h7
    cases hx : nums xs with
    | nil => rw [hx] at h5; cases h5
    | cons y ys =>
      rw [hx] at h5 h7
      cases h7 with
      | cons h8 h9 =>
        simp only [toOption_ok] at h5
        cases y with
        | none => cases h5
        | some a =>
          obtain ⟨i, lo, hi, p, k1, k2, k3, rfl⟩ := piecewiseFrom_ok h5
          have hl := h9.length_eq
          rw [← hl, Nat.zero_add] at k2
          rw [← hl] at k3
          exact ⟨a, i, lo, hi, p, (h8 a).1 rfl, band_of h9 k1, ⟨k2, k3⟩, h6⟩
  | controlCurveIndex storage curves =>
    obtain ⟨_, ⟨x, cs, h1, h2, rfl⟩, hm⟩ := hm
    refine ⟨fun _ t ht => ?_, fun hp => absurd rfl hp⟩
    obtain ⟨xs, q, h4, h5, h6⟩ := (L.flat hm trivial).1 (by simp [Kind.phase, curveIndexKind]) t ht
    have h7 := tells_nums (L.tells hm rfl ht (.cons h1 h2) (fun s hs => hs) h4)
    beta_reduce at h5 h7
    cases hx : nums xs with
    | nil => rw [hx] at h5; cases h5
    | cons y ys =>
      rw [hx] at h5 h7
      cases h7 with
      | cons h8 h9 =>
        simp only [toOption_ok] at h5
        cases y with
        | none => cases h5
        | some a =>
          obtain ⟨i, k1, k2⟩ := indexFrom_ok h5
          rw [Nat.zero_add] at k1
          subst k1
          exact ⟨a, _, (h8 a).1 rfl, first_of_band h9 k2, h6⟩
  | controlCurve storage curves values =>
    obtain ⟨_, ⟨x, cs, vs, h1, h2, h3, rfl⟩, hm⟩ := hm
    refine ⟨fun _ t ht => ?_, fun hp => absurd rfl hp⟩
    obtain ⟨xs, q, h4, h5, h6⟩ := (L.flat hm trivial).1 (by simp [Kind.phase, curveKind]) t ht
    have h7 := tells_nums (L.tells hm rfl ht (.cons h1 (List.rel_append h2 h3)) (fun s hs => hs) h4)
    beta_reduce at h5 h7
    cases hx : nums xs with
    | nil => rw [hx] at h5; cases h5
    | cons y ys =>
      rw [hx] at h5 h7
      cases h7 with
      | cons h8 h9 =>
        obtain ⟨h10, h11⟩ := split_tells h9 h2.length_eq
        simp only [toOption_ok] at h5
        cases y with
        | none => cases h5
        | some a =>
          obtain ⟨i, k1, k2, k3⟩ := curveFrom_ok h5
          have hl := h10.length_eq
          have hv := h11.length_eq
          rcases Nat.lt_or_ge i curves.length with hlt | hge
          · have e1 := k2 (by omega)
            rw [Nat.zero_add] at e1
            obtain ⟨m, k4, k5⟩ := tells_at h11 e1
            exact ⟨a, i, m, q, (h8 a).1 rfl, first_of_band h10 k1, ⟨fun _ => k4, fun he => by omega⟩, k5, h6⟩
          · have hi' : i = (List.take cs.length ys).length := by
              have := k1.1
              omega
            have e1 := k3 hi'
            rw [List.getLast?_eq_getElem?] at e1
            obtain ⟨m, k4, k5⟩ := tells_at h11 e1
            refine ⟨a, i, m, q, (h8 a).1 rfl, first_of_band h10 k1, ⟨fun _ => by omega, fun he => ?_⟩, k5, h6⟩
            rw [List.getLast?_eq_getElem?, hv]
            exact k4
  | daily values =>
    obtain ⟨_, ⟨qs, vs, h1, h2, rfl⟩, hm⟩ := hm
    refine ⟨fun _ t ht => ?_, fun hp => absurd rfl hp⟩
    obtain ⟨q, h3, h4⟩ := (L.flat hm trivial).1 (by simp [Kind.phase]) t ht
    exact ⟨qs, vs, q, h1, h2, h3, h4⟩
  | indexed index metrics =>
    obtain ⟨_, ⟨i, ss, h1, h2, rfl⟩, hm⟩ := hm
    refine ⟨fun _ t ht => ?_, fun hp => absurd rfl hp⟩
    obtain ⟨j, h3, h4, q, h5, h6⟩ := (L.flat hm trivial).1 (by simp [Kind.phase]) t ht
    have hl := h2.length_eq
    refine ⟨j, metrics[j], q, ?_, List.getElem?_eq_getElem (by omega), ?_, h6⟩
    · exact (L.idx hm h1 (by simp [Kind.sources]) (side := .early) (by simp [Kind.phase]) j).1 h3
    · exact (L.num hm (h2.get (by omega) h4) (by simp [Kind.sources]) (side := .early) (by simp [Kind.phase]) ht q).1 h5
  | monthly values interp =>
    obtain ⟨_, ⟨qs, h1, h2, rfl⟩, hm⟩ := hm
    refine ⟨fun _ t ht => ?_, fun hp => absurd rfl hp⟩
    obtain ⟨q, h3, h4⟩ := (L.flat hm trivial).1 (by simp [Kind.phase]) t ht
    exact ⟨qs, q, h1, h2, h3, h4⟩
  | weekly values interp =>
    obtain ⟨_, ⟨qs, h1, h2, rfl⟩, hm⟩ := hm
    refine ⟨fun _ t ht => ?_, fun hp => absurd rfl hp⟩
    obtain ⟨q, h3, h4⟩ := (L.flat hm trivial).1 (by simp [Kind.phase]) t ht
    exact ⟨qs, q, h1, by simpa [Profiles.weeklyAccepts] using h2, h3, h4⟩
  | drawdown day month residual =>
    obtain ⟨_, ⟨d, m, r, doy, h1, h2, h3, h4, rfl⟩, hm⟩ := hm
    refine ⟨fun _ t ht => ⟨d, m, r, h1, h2, h3, fun hd hmo hr => ⟨doy, ?_, ?_⟩⟩, fun hp => absurd rfl hp⟩
    · have e1 : (Profiles.castI8 m).toNat = m := by
        unfold Profiles.castI8
        rw [Nat.mod_eq_of_lt (by omega), if_pos hmo]
        rfl
      have e2 : (Profiles.castI8 d).toNat = d := by
        unfold Profiles.castI8
        rw [Nat.mod_eq_of_lt (by omega), if_pos hd]
        rfl
      rwa [e1, e2] at h4
    · obtain ⟨q, h5, h6⟩ := (L.flat hm trivial).1 (by simp [Kind.phase]) t ht
      obtain rfl := Option.some.inj h5
      rwa [show Profiles.castU8 r = r from Nat.mod_eq_of_lt hr] at h6
  | max m l =>
    obtain ⟨_, ⟨x, h1, rfl⟩, hm⟩ := hm
    refine ⟨fun _ t ht => ?_, fun hp => absurd rfl hp⟩
    obtain ⟨q, h2, h3⟩ := (L.flat hm trivial).1 (by simp [Kind.phase]) t ht
    exact ⟨q, (L.num hm h1 (by simp [Kind.sources]) (side := .early) (by simp [Kind.phase]) ht q).1 h2, h3⟩
  | min m l =>
    obtain ⟨_, ⟨x, h1, rfl⟩, hm⟩ := hm
    refine ⟨fun _ t ht => ?_, fun hp => absurd rfl hp⟩
    obtain ⟨q, h2, h3⟩ := (L.flat hm trivial).1 (by simp [Kind.phase]) t ht
    exact ⟨q, (L.num hm h1 (by simp [Kind.sources]) (side := .early) (by simp [Kind.phase]) ht q).1 h2, h3⟩
  | negative m =>
    obtain ⟨_, ⟨x, h1, rfl⟩, hm⟩ := hm
    refine ⟨fun _ t ht => ?_, fun hp => absurd rfl hp⟩
    obtain ⟨q, h2, h3⟩ := (L.flat hm trivial).1 (by simp [Kind.phase]) t ht
    exact ⟨q, (L.num hm h1 (by simp [Kind.sources]) (side := .early) (by simp [Kind.phase]) ht q).1 h2, h3⟩
  | polynomial m cs scale off =>
    obtain ⟨_, ⟨x, h1, rfl⟩, hm⟩ := hm
    refine ⟨fun _ t ht => ?_, fun hp => absurd rfl hp⟩
    obtain ⟨q, h2, h3⟩ := (L.flat hm trivial).1 (by simp [Kind.phase]) t ht
    exact ⟨q, (L.num hm h1 (by simp [Kind.sources]) (side := .early) (by simp [Kind.phase]) ht q).1 h2, h3⟩
  | threshold m l p returned ra =>
    obtain ⟨x, y, h1, h2, hm⟩ := hm
    refine L.returned hm (Is := fun value => Thresholded n value p ra _ _) fun c hm => ?_
    obtain ⟨form, h3, h4⟩ := L.early_eq hm (.inl rfl)
    have h3' : Thresholded n (early h _ form) _ _ _ _ := h3
    rw [funext h4] at h3'
    exact thresholded_congr (fun t ht q => L.num hm h1 (by simp [Kind.sources]) (side := .early) (by simp [Kind.phase]) ht q)
      (fun t ht q => L.num hm h2 (by simp [Kind.sources]) (side := .early) (by simp [Kind.phase]) ht q) h3'
  | delay m d init =>
    obtain ⟨_, ⟨x, h1, rfl⟩, hm⟩ := hm
    obtain ⟨form, ⟨xs, h3, -, h4⟩, h5⟩ := L.early_eq hm (.inr rfl)
    rw [funext h5] at h4
    refine ⟨fun t => (xs t).num, fun t ht => ?_, fun t ht => ⟨fun hd => ?_, fun hd => ?_⟩⟩
    · exact (L.num hm h1 (by simp [Kind.sources]) (side := .late) (by simp) ht _).1 ⟨_, h3 t ht, rfl⟩
    · exact ⟨congrArg Val.num ((h4 t ht).1 hd), congrArg Val.idx ((h4 t ht).1 hd)⟩
    · have h6 := (h4 t ht).2 hd
      exact ⟨by rw [show (storyOf A (builders ps) h).before o name t = _ from h6], by rw [show (storyOf A (builders ps) h).before o name t = _ from h6]⟩
  | delayIndex m d init =>
    obtain ⟨_, ⟨x, h1, rfl⟩, hm⟩ := hm
    obtain ⟨form, ⟨xs, h3, -, h4⟩, h5⟩ := L.early_eq hm (.inr rfl)
    rw [funext h5] at h4
    refine ⟨fun t => (xs t).idx, fun t ht => ?_, fun t ht => ⟨fun hd => ?_, fun hd => ?_⟩⟩
    · exact (L.idx hm h1 (by simp [Kind.sources]) (side := .late) (by simp) _).1 ⟨_, h3 t ht, rfl⟩
    · exact ⟨congrArg Val.idx ((h4 t ht).1 hd), congrArg Val.num ((h4 t ht).1 hd)⟩
    · have h6 := (h4 t ht).2 hd
      exact ⟨by rw [show (storyOf A (builders ps) h).before o name t = _ from h6], by rw [show (storyOf A (builders ps) h).before o name t = _ from h6]⟩
  | division a b p =>
    obtain ⟨_, ⟨x, y, h1, h2, rfl⟩, hm⟩ := hm
    constructor
    · intro hp t ht
      obtain ⟨q, r, h3, h4, h5⟩ := (L.flat hm trivial).1 hp t ht
      exact ⟨q, r, (L.num hm h1 (by simp [Kind.sources]) (side := .early) (fun _ => hp) ht q).1 h3,
        (L.num hm h2 (by simp [Kind.sources]) (side := .early) (fun _ => hp) ht r).1 h4, h5⟩
    · intro hp t ht
      obtain ⟨q, r, h3, h4, h5⟩ := (L.flat hm trivial).2 hp t ht
      exact ⟨q, r, (L.num hm h1 (by simp [Kind.sources]) (side := .late) (by simp) ht q).1 h3,
        (L.num hm h2 (by simp [Kind.sources]) (side := .late) (by simp) ht r).1 h4, h5⟩
  | difference a b lo hi =>
    obtain ⟨_, ⟨x, y, l, u, h1, h2, h3, h4, rfl⟩, hm⟩ := hm
    refine ⟨fun _ t ht => ?_, fun hp => absurd rfl hp⟩
    obtain ⟨p, q, l', u', r, h5, h6, ⟨l'', h7, rfl⟩, ⟨u'', h8, rfl⟩, h9⟩ := (L.flat hm trivial).1 (by simp [Kind.phase]) t ht
    exact ⟨p, q, l'', u'', r, (L.num hm h1 (by simp [Kind.sources]) (side := .early) (by simp [Kind.phase]) ht _).1 h5,
      (L.num hm h2 (by simp [Kind.sources]) (side := .early) (by simp [Kind.phase]) ht _).1 h6,
      (L.num hm h3 (by simp [Kind.sources]) (side := .early) (by simp [Kind.phase]) ht _).1 h7,
      (L.num hm h4 (by simp [Kind.sources]) (side := .early) (by simp [Kind.phase]) ht _).1 h8, h9⟩
  | volumeBetween a b c =>
    obtain ⟨_, ⟨x, u, l, h1, h2, h3, rfl⟩, hm⟩ := hm
    refine ⟨fun _ t ht => ?_, fun hp => absurd rfl hp⟩
    obtain ⟨p, q, r, h5, h6, h7, h9⟩ := (L.flat hm trivial).1 (by simp [Kind.phase]) t ht
    exact ⟨p, q, r, (L.num hm h1 (by simp [Kind.sources]) (side := .early) (by simp [Kind.phase]) ht _).1 h5,
      (L.num hm h2 (by simp [Kind.sources]) (side := .early) (by simp [Kind.phase]) ht _).1 h6,
      (L.num hm h3 (by simp [Kind.sources]) (side := .early) (by simp [Kind.phase]) ht _).1 h7, h9⟩
  | offset m c =>
    obtain ⟨_, ⟨x, q, h1, h2, rfl⟩, hm⟩ := hm
    refine ⟨fun _ t ht => ?_, fun hp => absurd rfl hp⟩
    obtain ⟨form, h3, -⟩ := L.form hm
    have h4 := L.holds _ hm _ h3
    obtain rfl := one_form rfl h3
    exact (h4.1 rfl t ht).elim
  | discount m base =>
    obtain ⟨_, ⟨x, h1, rfl⟩, hm⟩ := hm
    refine ⟨fun _ t ht => ?_, fun hp => absurd rfl hp⟩
    obtain ⟨q, h2, -, -, -, h3⟩ := (L.flat hm trivial).1 (by simp [Kind.phase]) t ht
    exact ⟨q, (L.num hm h1 (by simp [Kind.sources]) (side := .early) (by simp [Kind.phase]) ht q).1 h2, h3⟩
  | interpolated m xp fp e =>
    obtain ⟨_, ⟨x, xs, fs, h1, hl, h2, h3, rfl⟩, hm⟩ := hm
    refine ⟨fun _ t ht => ?_, fun hp => absurd rfl hp⟩
    obtain ⟨os, q, h4, h5, h6⟩ := (L.flat hm trivial).1 (by simp [Kind.phase, pointsKind]) t ht
    have hz : List.Forall₂ (Became A ps o) ((xp.zip fp).flatMap fun p => [p.1, p.2]) ((xs.zip fs).flatMap fun p => [p.1, p.2]) := by
      clear h4 h5 h6 hm
      induction h2 generalizing fp fs with
      | nil => exact .nil
      | cons h7 h8 ih =>
        cases h3 with
        | nil => exact .nil
        | cons h9 h10 => exact .cons h7 (.cons h9 (ih _ _ (by simpa using hl) h10 (by simp)))
    have h7 := L.tells hm rfl ht (.cons h1 hz) (fun s hs => hs) h4
    cases h7 with
    | @cons _ y _ ys h8 h9 =>
      match y, h5, h8 with
      | some y, h5, h8 =>
        simp only [Option.bind_eq_some_iff, toOption_ok] at h5
        obtain ⟨pts, h10, h11⟩ := h5
        obtain ⟨h12, h13⟩ := pairUp_ok hl h9 h10
        exact ⟨y.num, pts, q, (h8 _).1 rfl, h12, h13, h11, h6⟩
      | none, h5, _ => cases h5
  | negativeMax m l =>
    obtain ⟨_, ⟨x, h1, rfl⟩, hm⟩ := hm
    refine ⟨fun _ t ht => ?_, fun hp => absurd rfl hp⟩
    obtain ⟨q, h2, h3⟩ := (L.flat hm trivial).1 (by simp [Kind.phase]) t ht
    exact ⟨q, (L.num hm h1 (by simp [Kind.sources]) (side := .early) (by simp [Kind.phase]) ht q).1 h2, h3⟩
  | negativeMin m l =>
    obtain ⟨_, ⟨x, h1, rfl⟩, hm⟩ := hm
    refine ⟨fun _ t ht => ?_, fun hp => absurd rfl hp⟩
    obtain ⟨q, h2, h3⟩ := (L.flat hm trivial).1 (by simp [Kind.phase]) t ht
    exact ⟨q, (L.num hm h1 (by simp [Kind.sources]) (side := .early) (by simp [Kind.phase]) ht q).1 h2, h3⟩
  | rolling m w i l f =>
    obtain ⟨_, ⟨x, h1, rfl⟩, hm⟩ := hm
    obtain ⟨form, ⟨xs, h3, h4⟩, h5⟩ := L.early_eq hm (.inr rfl)
    rw [funext h5] at h4
    refine ⟨fun t => (xs t).num, fun t ht => ?_, fun t ht => ⟨(h4 t ht).1, fun hd => ?_⟩⟩
    · exact (L.num hm h1 (by simp [Kind.sources]) (side := .late) (by simp) ht _).1 ⟨_, h3 t ht, rfl⟩
    · obtain ⟨q, h6, h7⟩ := (h4 t ht).2 hd
      rw [List.map_map] at h6
      exact ⟨q, h6, h7⟩
  | rollingIndex m w i l f =>
    obtain ⟨_, ⟨x, h1, rfl⟩, hm⟩ := hm
    obtain ⟨form, ⟨xs, h3, h4⟩, h5⟩ := L.early_eq hm (.inr rfl)
    rw [funext h5] at h4
    refine ⟨fun t => (xs t).idx, fun t ht => ?_, fun t ht => ⟨(h4 t ht).1, fun hd => ?_⟩⟩
    · exact (L.idx hm h1 (by simp [Kind.sources]) (side := .late) (by simp) _).1 ⟨_, h3 t ht, rfl⟩
    · obtain ⟨q, h6, h7⟩ := (h4 t ht).2 hd
      rw [List.map_map] at h6
      exact ⟨q, h6, h7⟩
  | placeholder => exact hm.elim fun _ h => h.1.elim
  | multiThreshold m ls p returned ra =>
    obtain ⟨x, ys, h1, h2, hm⟩ := hm
    refine L.returned hm (Is := fun value => Positioned n value ra _) fun c hm => ?_
    obtain ⟨form, h3, h4⟩ := L.early_eq hm (.inl rfl)
    have h3' : Positioned n (early h c form) ra fun t i => ∃ a, Num (builders ps) h .before t .before x a ∧
      First p a (Num (builders ps) h .before t .before) ys i := h3
    rw [funext h4] at h3'
    refine positioned_mono (fun t ht i => ?_) h3'
    rintro ⟨a, h5, h6⟩
    refine ⟨a, (L.num hm h1 (by simp [Kind.sources]) (side := .early) (by simp [Kind.phase]) ht a).1 h5, ?_⟩
    exact first_swap h2 (fun m s h7 h8 q => (L.num hm h7 (by simp [Kind.sources, h8]) (side := .early) (by simp [Kind.phase]) ht q).1) h6
  | diurnal values =>
    obtain ⟨_, ⟨qs, h1, h2, rfl⟩, hm⟩ := hm
    refine ⟨fun _ t ht => ?_, fun hp => absurd rfl hp⟩
    obtain ⟨q, h3, h4⟩ := (L.flat hm trivial).1 (by simp [Kind.phase]) t ht
    exact ⟨qs, q, h1, h2, h3, h4⟩

end Verif.Load
