import Verif.Lemmas.Load

/-! # What each parameter of a document has become -/

namespace Verif.Load

open Verif.Params Verif.Kinds

variable {W : Type} {A : Args W}

/-- The hidden parameter of thresholds. -/
def hidden (name : String) : PName := ⟨name, some "threshold", some name⟩

/-- The names a parameter of a document is given. -/
def Own (A : Args W) (name : String) (o : Option String) (c : Nat) : Prop := c = A.code (named name o) ∨ c = A.code (hidden name)

/-- The parameter that returns values. -/
def MadeReturned (A : Args W) (ps : List (Param W)) (o : Option String) (name : String) (k : Kind W) :
    Option (List SMetric) → Prop
  | none => (⟨A.code (named name o), k⟩ : Param W) ∈ ps
  | some ms => (⟨A.code (hidden name), k⟩ : Param W) ∈ ps ∧ ∃ vs, List.Forall₂ (Became A ps o) ms vs ∧
      (⟨A.code (named name o), .indexed (.param (.index (A.code (hidden name)) .before)) vs⟩ : Param W) ∈ ps

/-- The kind of parameter of the network. -/
def Turned (A : Args W) (ps : List (Param W)) (o : Option String) : SKind → Kind W → Prop
  | .constant value, k => ∃ q, value.Is A q ∧ k = .constant q
  | .constantScenario values group, k => ∃ qs i q, values.Is A qs ∧ A.scenario group = some (i, qs.length) ∧ qs[i]? = some q ∧
      k = .constant q
  | .controlCurveInterpolated storage curves values, k => ∃ x cs vs, Became A ps o storage x ∧
      List.Forall₂ (Became A ps o) curves cs ∧ List.Forall₂ (Became A ps o) values vs ∧ k = interpolatedKind x cs vs
  | .aggregated f ms p, k => ∃ ss, List.Forall₂ (Became A ps o) ms ss ∧ k = .aggregated ss f p
  | .aggregatedIndex f ms p, k => ∃ ss, List.Forall₂ (BecameIndex A o) ms ss ∧ k = .aggregatedIndex ss f p
  | .asymmetric on off, k => ∃ x y, BecameIndex A o on x ∧ BecameIndex A o off y ∧ k = .asymmetric x y
  | .controlCurvePiecewise storage curves values maximum minimum, k => ∃ x cs, Became A ps o storage x ∧
      List.Forall₂ (Became A ps o) curves cs ∧ k = piecewiseKind x cs (values.getD []) (maximum.getD 1) (minimum.getD 0)
  | .controlCurveIndex storage curves, k => ∃ x cs, Became A ps o storage x ∧ List.Forall₂ (Became A ps o) curves cs ∧
      k = curveIndexKind x cs
  | .controlCurve storage curves values, k => ∃ x cs vs, Became A ps o storage x ∧
      List.Forall₂ (Became A ps o) curves cs ∧ List.Forall₂ (Became A ps o) values vs ∧ k = curveKind x cs vs
  | .daily values, k => ∃ qs vs, values.Is A qs ∧ Profiles.dailyValues qs = some vs ∧
      k = .scheduled fun t => Profiles.daily vs (A.time t)
  | .indexed index ms, k => ∃ i ss, BecameIndex A o index i ∧ List.Forall₂ (Became A ps o) ms ss ∧ k = .indexed i ss
  | .monthly values interp, k => ∃ qs, values.Is A qs ∧ qs.length = 12 ∧
      k = .scheduled fun t => Profiles.monthly qs interp (A.time t)
  | .weekly values interp, k => ∃ qs, values.Is A qs ∧ Profiles.weeklyAccepts qs = true ∧
      k = .scheduled fun t => Profiles.weekly qs interp (A.time t)
  | .drawdown day month residual, k => ∃ d m r doy, NatIs A 1 day d ∧ NatIs A 1 month m ∧ NatIs A 0 residual r ∧
      Profiles.resetDoy (Profiles.castI8 m).toNat (Profiles.castI8 d).toNat = some doy ∧
      k = .scheduled fun t => some (Profiles.drawdown (Profiles.castU8 r) doy (A.time t).date)
  | .max m l, k => ∃ x, Became A ps o m x ∧ k = .max x (l.getD 0)
  | .min m l, k => ∃ x, Became A ps o m x ∧ k = .min x (l.getD 0)
  | .negative m, k => ∃ x, Became A ps o m x ∧ k = .negative x
  | .polynomial m cs scale shift, k => ∃ x, Became A ps o m x ∧ k = .polynomial x cs (scale.getD 1) (shift.getD 0)
  | .delay m d init, k => ∃ x, Became A ps o m x ∧ k = .delay x d init
  | .delayIndex m d init, k => ∃ x, BecameIndex A o m x ∧ k = .delayIndex x d init
  | .division a b p, k => ∃ x y, Became A ps o a x ∧ Became A ps o b y ∧ k = .division x y p
  | .difference a b lo hi, k => ∃ x y l u, Became A ps o a x ∧ Became A ps o b y ∧ Became A ps o lo l ∧ Became A ps o hi u ∧
      k = .difference x y (some l) (some u)
  | .volumeBetween a b c, k => ∃ x u l, Became A ps o a x ∧ Became A ps o b u ∧ Became A ps o c l ∧ k = .volumeBetween x u l
  | .offset m c, k => ∃ x q, Became A ps o m x ∧ c.Is A q ∧ k = .offset x q
  | .discount m base, k => ∃ x, Became A ps o m x ∧ k = .discount x base
  | .interpolated m xp fp e, k => ∃ x xs fs, Became A ps o m x ∧ xp.length = fp.length ∧ List.Forall₂ (Became A ps o) xp xs ∧
      List.Forall₂ (Became A ps o) fp fs ∧ k = pointsKind x (xs.zip fs) (e.getD true)
  | .negativeMax m l, k => ∃ x, Became A ps o m x ∧ k = .negativeMax x (l.getD 0)
  | .negativeMin m l, k => ∃ x, Became A ps o m x ∧ k = .negativeMin x (l.getD 0)
  | .rolling m window init least f, k => ∃ x, Became A ps o m x ∧ k = .rolling x window init (least.getD window) f
  | .rollingIndex m window init least f, k => ∃ x, BecameIndex A o m x ∧ k = .rollingIndex x window init (least.getD window) f
  | .diurnal values, k => ∃ qs, values.Is A qs ∧ qs.length = 24 ∧ k = .scheduled fun t => Profiles.diurnal qs (A.time t)
  | _, _ => False

/-- The parameters of the network for one of the document. -/
def Made (A : Args W) (ps : List (Param W)) (o : Option String) (name : String) : SKind → Prop
  | .threshold m l p returned ra => ∃ x y, Became A ps o m x ∧ Became A ps o l y ∧
      MadeReturned A ps o name (.threshold x y p ra) returned
  | .multiThreshold m ls p returned ra => ∃ x ys, Became A ps o m x ∧ List.Forall₂ (Became A ps o) ls ys ∧
      MadeReturned A ps o name (.multiThreshold x ys p ra) returned
  | k => ∃ kind, Turned A ps o k kind ∧ (⟨A.code (named name o), kind⟩ : Param W) ∈ ps

/-- A multi-threshold without values is not one of a node. -/
def Plain (o : Option String) (k : SKind) : Prop := o = none ∨ ∀ m ls p r, k ≠ .multiThreshold m ls p none r

theorem forall_none {ps : List (Param W)} {o : Option String} {ms : List SMetric} {ss : List (Source W)}
    (h : List.Forall₂ (Became A ps none) ms ss) : List.Forall₂ (Became A ps o) ms ss := h.imp fun _ _ => Became.none_any

variable (hu : ∀ s table, A.series s = some table → (table.map Prod.fst).Nodup)
include hu

theorem each_load_safe {N : Nat → Prop} (o : Option String) (ms : List SMetric) :
    Safe A N (each (SMetric.load A o) ms) fun ps ss => List.Forall₂ (Became A ps o) ms ss :=
  .each fun m _ => m.load_safe hu o

theorem addReturned_safe {o : Option String} {name : String} {k : Kind W} {returned : Option (List SMetric)} {n : PName}
    (hn : n = match returned with | some _ => hidden name | none => named name o) :
    Safe A (Own A name o) (do push A n k; addReturned A name o n returned) fun ps _ => MadeReturned A ps o name k returned := by
  cases returned with
  | none =>
    subst hn
    exact .bind (.push (.inl rfl)) fun _ => .pure fun _ h => h
  | some ms =>
    subst hn
    refine .bind (.push (.inr rfl)) fun _ => .bind (each_load_safe hu none ms) fun vs => .mono (.push (.inl rfl)) ?_
    exact fun ps _ h1 h2 h3 => ⟨h3, vs, forall_none h2, h1⟩

theorem SKind.add_safe {o : Option String} {name : String} {k : SKind} (hp : Plain o k) :
    Safe A (Own A name o) (SKind.add A name o k) fun ps _ => Made A ps o name k := by
  have put : ∀ (kind : Kind W), Safe A (Own A name o) (push A (named name o) kind) fun ps _ =>
      (⟨A.code (named name o), kind⟩ : Param W) ∈ ps := fun kind => .push (.inl rfl)
  cases k with
  | constant v =>
    exact .bind v.load_safe fun q => .mono (put _) fun ps _ h1 h2 => ⟨_, ⟨q, h2, rfl⟩, h1⟩
  | constantScenario values g =>
    refine .bindOf values.load_safe fun qs ⟨_, hq⟩ => .bindOf .need fun i ⟨_, hi⟩ => .ite (fun hl => ?_) fun _ => .fail
    refine .bindOf .need fun q ⟨_, hv⟩ => .mono (put _) fun ps _ h1 => ⟨_, ⟨qs, i.1, q, hq, ?_, hv, rfl⟩, h1⟩
    rw [hi, hl]
  | controlCurveInterpolated x cs vs =>
    refine .bind (x.load_safe hu none) fun a => .bind (each_load_safe hu none cs) fun b =>
      .bind (each_load_safe hu none vs) fun c => .mono (put _) fun ps _ h1 h2 h3 h4 => ?_
    exact ⟨_, ⟨a, b, c, h4.none_any, forall_none h3, forall_none h2, rfl⟩, h1⟩
  | aggregated f ms p =>
    exact .bind (each_load_safe hu o ms) fun a => .mono (put _) fun ps _ h1 h2 => ⟨_, ⟨a, h2, rfl⟩, h1⟩
  | aggregatedIndex f ms p =>
    exact .bind (.each fun m _ => m.load_safe o) fun a => .mono (put _) fun ps _ h1 h2 => ⟨_, ⟨a, h2, rfl⟩, h1⟩
  | asymmetric on off =>
    exact .bind (on.load_safe none) fun a => .bind (off.load_safe none) fun b => .mono (put _) fun ps _ h1 h2 h3 =>
      ⟨_, ⟨a, b, h3.none_any, h2.none_any, rfl⟩, h1⟩
  | controlCurvePiecewise x cs vs mx mn =>
    exact .bind (x.load_safe hu o) fun a => .bind (each_load_safe hu o cs) fun b => .mono (put _) fun ps _ h1 h2 h3 =>
      ⟨_, ⟨a, b, h3, h2, rfl⟩, h1⟩
  | controlCurveIndex x cs =>
    exact .bind (x.load_safe hu o) fun a => .bind (each_load_safe hu o cs) fun b => .mono (put _) fun ps _ h1 h2 h3 =>
      ⟨_, ⟨a, b, h3, h2, rfl⟩, h1⟩
  | controlCurve x cs vs =>
    refine .bind (x.load_safe hu none) fun a => .bind (each_load_safe hu o cs) fun b =>
      .bind (each_load_safe hu o vs) fun c => .mono (put _) fun ps _ h1 h2 h3 h4 => ?_
    exact ⟨_, ⟨a, b, c, h4.none_any, h3, h2, rfl⟩, h1⟩
  | daily values =>
    exact .bind values.load_safe fun qs => .bindOf .need fun vs ⟨_, hv⟩ => .mono (put _) fun ps _ h1 h2 =>
      ⟨_, ⟨qs, vs, h2, hv, rfl⟩, h1⟩
  | indexed i ms =>
    exact .bind (i.load_safe none) fun a => .bind (each_load_safe hu o ms) fun b => .mono (put _) fun ps _ h1 h2 h3 =>
      ⟨_, ⟨a, b, h3.none_any, h2, rfl⟩, h1⟩
  | monthly values interp =>
    exact .bind values.load_safe fun qs => .ite (fun hl => .mono (put _) fun ps _ h1 h2 => ⟨_, ⟨qs, h2, hl, rfl⟩, h1⟩) fun _ => .fail
  | weekly values interp =>
    exact .bind values.load_safe fun qs => .ite (fun hl => .mono (put _) fun ps _ h1 h2 => ⟨_, ⟨qs, h2, hl, rfl⟩, h1⟩) fun _ => .fail
  | drawdown day month residual =>
    refine .bind (natOr_safe 1 day) fun d => .bind (natOr_safe 1 month) fun m => .bind (natOr_safe 0 residual) fun r => ?_
    refine .ite (fun _ => .bindOf .need fun doy ⟨_, hd⟩ => .mono (put _) fun ps _ h1 h2 h3 h4 => ?_) fun _ => .fail
    exact ⟨_, ⟨d, m, r, doy, h4, h3, h2, hd, rfl⟩, h1⟩
  | max m l => exact .bind (m.load_safe hu none) fun a => .mono (put _) fun ps _ h1 h2 => ⟨_, ⟨a, h2.none_any, rfl⟩, h1⟩
  | min m l => exact .bind (m.load_safe hu none) fun a => .mono (put _) fun ps _ h1 h2 => ⟨_, ⟨a, h2.none_any, rfl⟩, h1⟩
  | negative m => exact .bind (m.load_safe hu none) fun a => .mono (put _) fun ps _ h1 h2 => ⟨_, ⟨a, h2.none_any, rfl⟩, h1⟩
  | polynomial m cs s f =>
    exact .bind (m.load_safe hu none) fun a => .mono (put _) fun ps _ h1 h2 => ⟨_, ⟨a, h2.none_any, rfl⟩, h1⟩
  | threshold m l p returned ra =>
    refine .bind (m.load_safe hu none) fun a => .bind (l.load_safe hu none) fun b => ?_
    refine .mono (addReturned_safe hu (o := o) (name := name) (n := thresholdName name o returned) ?_) fun ps _ h1 h2 h3 => ?_
    · cases returned <;> rfl
    · exact ⟨a, b, h3.none_any, h2.none_any, h1⟩
  | delay m d i => exact .bind (m.load_safe hu none) fun a => .mono (put _) fun ps _ h1 h2 => ⟨_, ⟨a, h2.none_any, rfl⟩, h1⟩
  | delayIndex m d i => exact .bind (m.load_safe none) fun a => .mono (put _) fun ps _ h1 h2 => ⟨_, ⟨a, h2.none_any, rfl⟩, h1⟩
  | division x y p =>
    exact .bind (x.load_safe hu none) fun a => .bind (y.load_safe hu none) fun b => .mono (put _) fun ps _ h1 h2 h3 =>
      ⟨_, ⟨a, b, h3.none_any, h2.none_any, rfl⟩, h1⟩
  | difference a b lo hi =>
    exact .bind (a.load_safe hu o) fun x => .bind (b.load_safe hu o) fun y => .bind (lo.load_safe hu o) fun l => .bind (hi.load_safe hu o) fun u =>
      .mono (put _) fun ps _ h1 h2 h3 h4 h5 => ⟨_, ⟨x, y, l, u, h5, h4, h3, h2, rfl⟩, h1⟩
  | volumeBetween a b c =>
    exact .bind (a.load_safe hu o) fun x => .bind (b.load_safe hu o) fun u => .bind (c.load_safe hu o) fun l =>
      .mono (put _) fun ps _ h1 h2 h3 h4 => ⟨_, ⟨x, u, l, h4, h3, h2, rfl⟩, h1⟩
  | offset m c =>
    exact .bind (m.load_safe hu none) fun a => .bind c.load_safe fun b => .mono (put _) fun ps _ h1 h2 h3 =>
      ⟨_, ⟨a, b, h3.none_any, h2, rfl⟩, h1⟩
  | discount m base =>
    exact .bind (m.load_safe hu none) fun a => .mono (put _) fun ps _ h1 h2 => ⟨_, ⟨a, h2.none_any, rfl⟩, h1⟩
  | interpolated m xp fp e =>
    refine .bind (m.load_safe hu none) fun a => .ite (fun hl => ?_) fun _ => .fail
    refine .bind (each_load_safe hu none xp) fun b => .bind (each_load_safe hu none fp) fun c => .mono (put _) fun ps _ h1 h2 h3 h4 => ?_
    exact ⟨_, ⟨a, b, c, h4.none_any, hl, forall_none h3, forall_none h2, rfl⟩, h1⟩
  | negativeMax m l => exact .bind (m.load_safe hu none) fun a => .mono (put _) fun ps _ h1 h2 => ⟨_, ⟨a, h2.none_any, rfl⟩, h1⟩
  | negativeMin m l => exact .bind (m.load_safe hu none) fun a => .mono (put _) fun ps _ h1 h2 => ⟨_, ⟨a, h2.none_any, rfl⟩, h1⟩
  | rolling m w i l f => exact .bind (m.load_safe hu none) fun a => .mono (put _) fun ps _ h1 h2 => ⟨_, ⟨a, h2.none_any, rfl⟩, h1⟩
  | rollingIndex m w i l f => exact .bind (m.load_safe none) fun a => .mono (put _) fun ps _ h1 h2 => ⟨_, ⟨a, h2.none_any, rfl⟩, h1⟩
  | placeholder => exact .fail
  | multiThreshold m ls p returned ra =>
    refine .bind (m.load_safe hu none) fun a => .bind (each_load_safe hu o ls) fun b => ?_
    refine .mono (addReturned_safe hu (o := o) (name := name) (n := multiThresholdName name returned) ?_) fun ps _ h1 h2 h3 => ?_
    · cases returned with
      | some _ => rfl
      | none =>
        rcases hp with rfl | hp
        · rfl
        · exact absurd rfl (hp m ls p ra)
    · exact ⟨a, b, h3.none_any, h2, h1⟩
  | diurnal values =>
    exact .bind values.load_safe fun qs => .ite (fun hl => .mono (put _) fun ps _ h1 h2 => ⟨_, ⟨qs, h2, hl, rfl⟩, h1⟩) fun _ => .fail

end Verif.Load
