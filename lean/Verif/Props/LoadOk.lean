import Verif.Spec.LoadOk

/-!
# C97: which documents can be loaded
-/

namespace Verif.Load

open Verif.Params Verif.Kinds

variable {W : Type} {A : Args W}

/-- An action succeeds exactly if `P`, whatever has been added before. -/
def Can {α : Type} (m : Step W α) (P : Prop) : Prop := ∀ ps, (∃ r, m ps = .ok r) ↔ P

/-- An action adds nothing and returns the only value for which `Is` holds. -/
def Looks {α : Type} (m : Step W α) (Is : α → Prop) : Prop :=
  (∃ a, (∀ b, Is b ↔ b = a) ∧ ∀ ps, m ps = .ok (a, ps)) ∨ ((∀ b, ¬ Is b) ∧ ∀ ps, ∃ e, m ps = .error e)

section Rules

variable {α β : Type}

theorem Can.pure (a : α) : Can (pure a : Step W α) True := fun ps => ⟨fun _ => trivial, fun _ => ⟨(a, ps), rfl⟩⟩

theorem Can.fail {e : Err} : Can (fail e : Step W α) False := fun _ => ⟨fun ⟨_, h⟩ => (nomatch h), False.elim⟩

theorem Can.push {n : PName} {k : Kind W} : Can (push A n k) True := fun _ => ⟨fun _ => trivial, fun _ => ⟨_, rfl⟩⟩

theorem Can.pushNew {n : PName} {k : Kind W} : Can (pushNew A n k) True := fun ps => by
  refine ⟨fun _ => trivial, fun _ => ?_⟩
  unfold Load.pushNew
  split_ifs
  · exact ⟨_, rfl⟩
  · exact ⟨_, rfl⟩

theorem and_true_iff {P : Prop} : P ∧ True ↔ P := by simp

theorem Can.congr {m : Step W α} {P Q : Prop} (h : Can m P) (hi : P ↔ Q) : Can m Q := fun ps => (h ps).trans hi

theorem Can.bind {m : Step W α} {f : α → Step W β} {P Q : Prop} (h1 : Can m P) (h2 : ∀ a, Can (f a) Q) :
    Can (m >>= f) (P ∧ Q) := by
  intro ps
  show (∃ r, Step.bind m f ps = .ok r) ↔ _
  unfold Step.bind
  have h := h1 ps
  cases hm : m ps with
  | error e =>
    rw [hm] at h
    have hp : ¬ P := fun hp => by obtain ⟨r, hr⟩ := h.2 hp; cases hr
    simp [hp]
  | ok r =>
    rw [hm] at h
    have hp : P := h.1 ⟨r, rfl⟩
    simp only [hp, true_and]
    exact h2 r.1 r.2

theorem Can.look {m : Step W α} {Is : α → Prop} {f : α → Step W β} {Q : α → Prop} (h1 : Looks m Is)
    (h2 : ∀ a, Can (f a) (Q a)) : Can (m >>= f) (∃ a, Is a ∧ Q a) := by
  intro ps
  show (∃ r, Step.bind m f ps = .ok r) ↔ _
  unfold Step.bind
  rcases h1 with ⟨a, h3, h4⟩ | ⟨h3, h4⟩
  · rw [h4 ps]
    simp only [h3, exists_eq_left]
    exact h2 a ps
  · obtain ⟨e, h5⟩ := h4 ps
    rw [h5]
    simp [h3]

theorem Can.ite {c : Prop} [Decidable c] {m m' : Step W α} {P : Prop} (h1 : Can m P) (h2 : Can m' False) :
    Can (if c then m else m') (c ∧ P) := by
  by_cases hc : c
  · rw [if_pos hc]; exact h1.congr (by simp [hc])
  · rw [if_neg hc]; exact h2.congr (by simp [hc])

theorem Can.each {f : α → Step W β} {P : α → Prop} : ∀ {as : List α}, (∀ a ∈ as, Can (f a) (P a)) → Can (each f as) (∀ a ∈ as, P a)
  | [], _ => (Can.pure []).congr (by simp)
  | a :: as, h => by
    refine Can.congr (.bind (h a (List.mem_cons_self ..)) fun _ =>
      .bind (Can.each fun b hb => h b (List.mem_cons_of_mem _ hb)) fun _ => .pure _) ?_
    simp

theorem Looks.need {e : Err} {o : Option α} : Looks (need e o : Step W α) (fun a => o = some a) := by
  cases o with
  | none => exact .inr ⟨by simp, fun _ => ⟨_, rfl⟩⟩
  | some a => exact .inl ⟨a, fun b => by simp [eq_comm], fun _ => rfl⟩

theorem Looks.pure {a : α} : Looks (pure a : Step W α) (fun b => b = a) := .inl ⟨a, fun _ => Iff.rfl, fun _ => rfl⟩

theorem Looks.can {m : Step W α} {Is : α → Prop} (h : Looks m Is) : Can m (∃ a, Is a) := by
  intro ps
  rcases h with ⟨a, h1, h2⟩ | ⟨h1, h2⟩
  · exact ⟨fun _ => ⟨a, (h1 a).2 rfl⟩, fun _ => ⟨_, h2 ps⟩⟩
  · obtain ⟨e, h3⟩ := h2 ps
    rw [h3]
    simp [h1]

end Rules

theorem SConst.looks (c : SConst) : Looks (c.load A) (c.Is A) := by
  cases c with
  | lit v => exact .pure
  | table r => exact .need

theorem SList.looks (c : SList) : Looks (c.load A) (c.Is A) := by
  cases c with
  | lit v => exact .pure
  | table r => exact .need

theorem natOr_looks (d : Nat) (c : Option SNat) : Looks (natOr A d c) (NatIs A d c) := by
  match c with
  | none => exact .pure
  | some (.lit v) => exact .pure
  | some (.table r) => exact .need

theorem loadColumn_can {s c : String} {cols : List (String × List ℚ)} : Can (loadColumn A s cols c) (∃ x ∈ cols, x.1 = c) := by
  refine Can.congr (.look .need fun x => .bind .pushNew fun _ => .pure _) ?_
  simp only [and_self, and_true]
  constructor
  · rintro ⟨x, hx⟩
    exact ⟨x, List.mem_of_find?_eq_some hx, by simpa using List.find?_some hx⟩
  · rintro ⟨x, hx, hc⟩
    exact Option.isSome_iff_exists.1 (List.find?_isSome.2 ⟨x, hx, by simpa using hc⟩)

theorem SMetric.load_can (o : Option String) (m : SMetric) : Can (m.load A o) (m.Loads A o) := by
  cases m with
  | literal v => exact .pure _
  | table r => exact Can.congr (.look .need fun _ => .pure _) (by simp [SMetric.Loads])
  | component c =>
    show Can (loadComponent A c) _
    unfold loadComponent
    cases h : A.comp c with
    | error e => exact Can.fail.congr (by simp [SMetric.Loads, h])
    | ok f =>
      cases f with
      | shown f => exact (Can.pure _).congr (by simp [SMetric.Loads, h])
      | deficit node f l => exact Can.congr (.bind .pushNew fun _ => .pure _) (by simp [SMetric.Loads, h])
  | series s c =>
    refine Can.congr (.look (Q := fun table => match c with
        | none => table.length = 1
        | some (.column name) => ∃ c ∈ table, c.1 = name
        | some (.scenario group) => ∃ i, A.scenario group = some i) .need fun cols => ?_) ?_
    · match c with
      | none =>
        refine Can.congr (P := _ ∧ True) (.bind ?_ fun _ => .pure _) and_true_iff
        show Can (loadSingle A s cols) _
        match cols with
        | [] => exact Can.fail.congr (by simp)
        | [c] => exact loadColumn_can.congr (by simp)
        | _ :: _ :: _ => exact Can.fail.congr (by simp)
      | some (.column name) =>
        exact Can.congr (P := _ ∧ True) (.bind loadColumn_can fun _ => .pure _) and_true_iff
      | some (.scenario g) =>
        refine Can.congr (P := _ ∧ True) (.bind (P := ∃ i, A.scenario g = some i) ?_ fun _ => .pure _) and_true_iff
        exact Can.congr (.look .need fun _ => .bind .pushNew fun _ => .pure _) (by simp)
    · rfl
  | param r => exact .pure _
  | localParam r =>
    cases o with
    | none => exact Can.fail.congr (by simp [SMetric.Loads])
    | some p => exact (Can.pure _).congr (by simp [SMetric.Loads])

theorem SIndex.load_can (o : Option String) (m : SIndex) : Can (m.load A o) (m.Loads A o) := by
  cases m with
  | constant v => exact .pure _
  | table r => exact Can.congr (.look .need fun _ => .pure _) (by simp [SIndex.Loads])
  | node n =>
    show Can (if A.node n = true then _ else _) _
    by_cases h : A.node n = true
    · rw [if_pos h]; exact .fail
    · rw [if_neg h]; exact .fail
  | param r => exact .pure _
  | localParam r =>
    cases o with
    | none => exact Can.fail.congr (by simp [SIndex.Loads])
    | some p => exact (Can.pure _).congr (by simp [SIndex.Loads])
  | transfer n => exact .pure _

theorem each_can (o : Option String) (ms : List SMetric) : Can (each (SMetric.load A o) ms) (∀ m ∈ ms, m.Loads A o) :=
  .each fun m _ => m.load_can o

theorem addReturned_can {name : String} {o : Option String} {i : PName} {returned : Option (List SMetric)} :
    Can (addReturned A name o i returned) (∀ ms, returned = some ms → ∀ m ∈ ms, m.Loads A none) := by
  cases returned with
  | none => exact (Can.pure ()).congr (by simp)
  | some ms => exact Can.congr (.bind (each_can none ms) fun _ => .push) (by simp)

theorem castI8_nonneg {k : Nat} : 0 ≤ Profiles.castI8 k ↔ k % 256 < 128 := by
  unfold Profiles.castI8
  split_ifs with h <;> omega

theorem castI8_toNat {k : Nat} (h : k % 256 < 128) : (Profiles.castI8 k).toNat = k % 256 := by
  unfold Profiles.castI8
  rw [if_pos h]
  rfl

theorem SKind.add_can (name : String) (o : Option String) (k : SKind) : Can (SKind.add A name o k) (k.Loads A o) := by
  have one : ∀ (m : SMetric) (g : Source W → Kind W),
      Can (do let x ← m.load A none; push A (named name o) (g x)) (m.Loads A none) :=
    fun m g => Can.congr (.bind (m.load_can none) fun _ => .push) and_true_iff
  have two : ∀ (m m' : SMetric) (g : Source W → Source W → Kind W),
      Can (do let x ← m.load A none; let y ← m'.load A none; push A (named name o) (g x y)) (m.Loads A none ∧ m'.Loads A none) :=
    fun m m' g => Can.congr (.bind (m.load_can none) fun _ => .bind (m'.load_can none) fun _ => .push) (by simp)
  cases k with
  | constant v => exact Can.congr (.look v.looks fun _ => .push) (by simp [SKind.Loads])
  | constantScenario values g =>
    refine Can.congr (.look values.looks fun qs => .look .need fun i => .ite (.look .need fun _ => .push) .fail) ?_
    simp only [and_true, SKind.Loads]
    constructor
    · rintro ⟨qs, h1, ⟨i, l⟩, h2, rfl, q, h4⟩
      exact ⟨qs, i, h1, h2, (List.getElem?_eq_some_iff.1 h4).1⟩
    · rintro ⟨qs, i, h1, h2, h3⟩
      exact ⟨qs, h1, (i, qs.length), h2, rfl, qs[i], List.getElem?_eq_getElem h3⟩
  | controlCurveInterpolated x cs vs =>
    exact Can.congr (.bind (x.load_can none) fun _ => .bind (each_can none cs) fun _ => .bind (each_can none vs) fun _ => .push)
      (by simp [SKind.Loads])
  | aggregated f ms p => exact Can.congr (.bind (each_can o ms) fun _ => .push) and_true_iff
  | aggregatedIndex f ms p => exact Can.congr (.bind (.each fun m _ => m.load_can o) fun _ => .push) and_true_iff
  | asymmetric on off =>
    exact Can.congr (.bind (on.load_can none) fun _ => .bind (off.load_can none) fun _ => .push) (by simp [SKind.Loads])
  | controlCurvePiecewise x cs vs mx mn =>
    exact Can.congr (.bind (x.load_can o) fun _ => .bind (each_can o cs) fun _ => .push) (by simp [SKind.Loads])
  | controlCurveIndex x cs =>
    exact Can.congr (.bind (x.load_can o) fun _ => .bind (each_can o cs) fun _ => .push) (by simp [SKind.Loads])
  | controlCurve x cs vs =>
    exact Can.congr (.bind (x.load_can none) fun _ => .bind (each_can o cs) fun _ => .bind (each_can o vs) fun _ => .push)
      (by simp [SKind.Loads])
  | daily values =>
    refine Can.congr (.look values.looks fun qs => .look .need fun _ => .push) ?_
    simp only [and_true, SKind.Loads, Profiles.dailyValues]
    refine exists_congr fun qs => and_congr_right fun _ => ?_
    split_ifs <;> simp_all
  | indexed i ms =>
    exact Can.congr (.bind (i.load_can none) fun _ => .bind (each_can o ms) fun _ => .push) (by simp [SKind.Loads])
  | monthly values interp =>
    exact Can.congr (.look values.looks fun qs => .ite .push .fail) (by simp [SKind.Loads])
  | weekly values interp =>
    exact Can.congr (.look values.looks fun qs => .ite .push .fail) (by simp [SKind.Loads, Profiles.weeklyAccepts])
  | drawdown day month residual =>
    refine Can.congr (.look (natOr_looks 1 day) fun d => .look (natOr_looks 1 month) fun m => .look (natOr_looks 0 residual) fun r =>
      .ite (.look .need fun doy => .push) .fail) ?_
    simp only [and_true, castI8_nonneg, SKind.Loads]
    constructor
    · rintro ⟨d, h1, m, h2, r, h3, ⟨h4, h5⟩, doy, h6⟩
      rw [castI8_toNat h4, castI8_toNat h5] at h6
      unfold Profiles.resetDoy at h6
      split_ifs at h6 with h7
      exact ⟨d, m, r, h1, h2, h3, h4, h5, h7⟩
    · rintro ⟨d, m, r, h1, h2, h3, h4, h5, h7⟩
      refine ⟨d, h1, m, h2, r, h3, ⟨h4, h5⟩, Calendar.Date.dayOfYear ⟨2016, m % 256, d % 256⟩, ?_⟩
      rw [castI8_toNat h4, castI8_toNat h5]
      exact if_pos h7
  | max m l => exact one _ _
  | min m l => exact one _ _
  | negative m => exact one _ _
  | polynomial m cs s f => exact one _ _
  | threshold m l p returned ra =>
    exact Can.congr (.bind (m.load_can none) fun _ => .bind (l.load_can none) fun _ => .bind .push fun _ => addReturned_can)
      (by simp [SKind.Loads])
  | delay m d i => exact one _ _
  | delayIndex m d i => exact Can.congr (.bind (m.load_can none) fun _ => .push) and_true_iff
  | division x y p => exact two _ _ _
  | difference a b lo hi =>
    exact Can.congr (.bind (a.load_can o) fun _ => .bind (b.load_can o) fun _ => .bind (lo.load_can o) fun _ => .bind (hi.load_can o) fun _ => .push)
      (by simp [SKind.Loads])
  | volumeBetween a b c =>
    exact Can.congr (.bind (a.load_can o) fun _ => .bind (b.load_can o) fun _ => .bind (c.load_can o) fun _ => .push)
      (by simp [SKind.Loads])
  | offset m c => exact Can.congr (.bind (m.load_can none) fun _ => .look c.looks fun _ => .push) (by simp [SKind.Loads])
  | discount m base => exact one _ _
  | interpolated m xp fp e =>
    exact Can.congr (.bind (m.load_can none) fun _ => .ite (.bind (each_can none xp) fun _ => .bind (each_can none fp) fun _ => .push) .fail)
      (by simp [SKind.Loads])
  | negativeMax m l => exact one _ _
  | negativeMin m l => exact one _ _
  | rolling m w i l f => exact one _ _
  | rollingIndex m w i l f => exact Can.congr (.bind (m.load_can none) fun _ => .push) and_true_iff
  | placeholder => exact .fail
  | multiThreshold m ls p returned ra =>
    exact Can.congr (.bind (m.load_can none) fun _ => .bind (each_can o ls) fun _ => .bind .push fun _ => addReturned_can)
      (by simp [SKind.Loads])
  | diurnal values => exact Can.congr (.look values.looks fun qs => .ite .push .fail) (by simp [SKind.Loads])

theorem Doc.loadOutput_can (D : Doc) (m : SMetric) : Can (D.loadOutput A m) (D.Records A m) := by
  have names : ∀ (r : PRef) (s : Source W), Can (W := W) (if D.params.any (fun p => p.1 = r.name) then pure s else fail (.paramNotFound r.name))
      (∃ p ∈ D.params, p.1 = r.name) := by
    intro r s
    exact Can.congr (.ite (.pure _) .fail) (by simp)
  cases m with
  | literal v => exact Can.congr (.bind (SMetric.load_can none _) fun _ => .fail) (by simp [Doc.Records])
  | param r => exact Can.congr (.bind (SMetric.load_can none _) fun s => names r s) (by simp [Doc.Records, SMetric.Loads])
  | localParam r => exact Can.congr (.bind (SMetric.load_can none _) fun s => names r s) (by simp [Doc.Records, SMetric.Loads])
  | table r => exact Can.congr (.bind (SMetric.load_can none _) fun s => .pure s) and_true_iff
  | component c => exact Can.congr (.bind (SMetric.load_can none _) fun s => .pure s) and_true_iff
  | series s c => exact Can.congr (.bind (SMetric.load_can none _) fun s => .pure s) and_true_iff

/-- A document is loaded exactly if the names of its nodes differ, all tables, series, groups and components it refers to are
there, and references to parameters of the own node are only used in the places in which they are understood. -/
theorem C97_loads (A : Args W) (D : Doc) : (∃ r, D.loaded A = .ok r) ↔ D.Loads A := by
  have h : Can (D.load A) (D.valid = true ∧ (∀ n ∈ D.nodes, ∀ m ∈ n.uses, m.Loads A (some n.name)) ∧
      (∀ n ∈ D.virtuals, ∀ m ∈ n.uses, m.Loads A (some n.name)) ∧ (∀ n ∈ D.nodes, ∀ p ∈ n.params, p.2.Loads A (some n.name)) ∧
      (∀ p ∈ D.params, p.2.Loads A none) ∧ (∀ m ∈ D.outputs, D.Records A m) ∧ (∀ m ∈ D.links, m.Loads A none) ∧ True) :=
    .ite (.bind (.each fun n _ => each_can _ _) fun _ => .bind (.each fun n _ => each_can _ _) fun _ =>
      .bind (.each fun n _ => .each fun p _ => SKind.add_can _ _ _) fun _ => .bind (.each fun p _ => SKind.add_can _ _ _) fun _ =>
      .bind (.each fun m _ => D.loadOutput_can m) fun _ => .bind (each_can none D.links) fun _ => .pure _) .fail
  have h' : (∃ r, D.loaded A = .ok r) ↔ _ := h []
  rw [h']
  constructor
  · rintro ⟨h1, h2, h3, h4, h5, h6, h7, -⟩
    refine ⟨by simpa [Doc.valid] using h1, fun n hn => ?_, h4, h5, h6, h7⟩
    exact (List.mem_append.1 hn).elim (h2 n) (h3 n)
  · rintro ⟨h1, h2, h3, h4, h5, h6⟩
    exact ⟨by simpa [Doc.valid] using h1, fun n hn => h2 n (List.mem_append_left _ hn), fun n hn => h2 n (List.mem_append_right _ hn),
      h3, h4, h5, h6, trivial⟩

end Verif.Load
