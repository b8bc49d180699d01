import Verif.Spec.Variables
import Verif.Lemmas.Activation

namespace Verif.Variables

open Verif.Profiles (rbfCurrent)

theorem zip_fst_snd (ps : List (Nat × ℚ)) : List.zip (ps.map Prod.fst) (ps.map Prod.snd) = ps := by
  induction ps with
  | nil => rfl
  | cons p ps ih => simp [ih]

theorem zip_fst (ps : List (Nat × ℚ)) (f : List ℚ) :
    List.zip (ps.map Prod.fst) f = (List.zip ps f).map (fun p => (p.1.1, p.2)) := by
  induction ps generalizing f with
  | nil => rfl
  | cons p ps ih => cases f <;> simp [ih]

theorem rbfCurrent_points (ps : List (Nat × ℚ)) (l : Last) : rbfCurrent ps l.u l.f = points ps l := by
  obtain ⟨f, u⟩ := l
  unfold points rbfCurrent
  cases f with
  | none =>
    cases u with
    | none => exact (zip_fst_snd ps).symm
    | some u => rfl
  | some f =>
    cases u with
    | none => exact (zip_fst ps f).symm
    | some u => rfl

/-- The internal state agrees with the record. -/
def Agrees (p : Param) (l : Last) : Internal → Prop
  | .none => (∃ o, p = .offset o) ∨ ∃ f, p = .other f
  | .value v => (∃ c, p = .constant c) ∧ l.f = v.map (fun x => [x]) ∧ l.u = none
  | .rbf profile xs ys => ∃ ps interp, p = .rbf ps interp ∧ xs = l.u ∧ ys = l.f ∧
      interp (points ps l) = some profile

theorem agrees_setup {p : Param} {st : Internal} (h : setupInternal p = .ok st) :
    Agrees p ⟨none, none⟩ st := by
  cases p with
  | constant v => cases h; exact ⟨⟨v, rfl⟩, rfl, rfl⟩
  | offset o => cases h; exact Or.inl ⟨o, rfl⟩
  | other f => cases h; exact Or.inr ⟨f, rfl⟩
  | rbf ps interp =>
    simp only [setupInternal] at h
    split at h
    · rename_i profile hp
      cases h
      refine ⟨ps, interp, rfl, rfl, rfl, ?_⟩
      rw [← rbfCurrent_points ps ⟨none, none⟩]
      exact hp
    · cases h

theorem setPoints_ok {ps interp xs ys profile st o} (h : setPoints ps interp xs ys profile = (st, o))
    (ho : o ≠ .panic) : ∃ p, interp (rbfCurrent ps xs ys) = some p ∧ st = .rbf p xs ys ∧ o = .ok () := by
  unfold setPoints at h
  split at h
  · rename_i p hp
    cases h; exact ⟨p, hp, rfl, rfl⟩
  · cases h; exact absurd rfl ho

/-- Setting one internal state: either nothing is accepted and nothing changes, or the record
is updated. -/
theorem agrees_set {p : Param} {l : Last} {st st' : Internal} {v : Vals} {cfg : Config}
    {o : Outcome Unit} (ha : Agrees p l st) (h : setVariables p v cfg st = (st', o)) (ho : o ≠ .panic) :
    (o = .error ∧ st' = st ∧ ∀ v', ¬ Accepted p v cfg v') ∨
      (o = .ok () ∧ ∃ v', Accepted p v cfg v' ∧ Agrees p (l.put v') st') := by
  cases p with
  | other f =>
    simp only [setVariables] at h
    cases h
    exact Or.inl ⟨rfl, rfl, fun v' hv => by cases hv⟩
  | offset c =>
    cases st with
    | value v => obtain ⟨⟨c, hc⟩, -⟩ := ha; cases hc
    | rbf a b c => obtain ⟨_, _, hc, -⟩ := ha; cases hc
    | none =>
      cases v with
      | u values => cases h; exact Or.inl ⟨rfl, rfl, fun v' hv => by cases hv⟩
      | f values =>
        cases cfg with
        | rbf => cases h; exact absurd rfl ho
        | activation a =>
          rcases values with _ | ⟨x, _ | ⟨y, zs⟩⟩
          · cases h; exact Or.inl ⟨rfl, rfl, fun v' hv => by cases hv⟩
          · cases h; exact absurd rfl ho
          · cases h; exact Or.inl ⟨rfl, rfl, fun v' hv => by cases hv⟩
  | constant c =>
    cases st with
    | none => rcases ha with ⟨_, hc⟩ | ⟨_, hc⟩ <;> cases hc
    | rbf a b c => obtain ⟨_, _, hc, -⟩ := ha; cases hc
    | value cur =>
      cases v with
      | u values => cases h; exact Or.inl ⟨rfl, rfl, fun v' hv => by cases hv⟩
      | f values =>
        cases cfg with
        | rbf => cases h; exact absurd rfl ho
        | activation a =>
          rcases values with _ | ⟨x, _ | ⟨y, zs⟩⟩
          · cases h; exact Or.inl ⟨rfl, rfl, fun v' hv => by cases hv⟩
          · have h' : setValue x a (.value cur) = (st', o) := h
            unfold setValue at h'
            simp only at h'
            cases hap : a.apply x with
            | ok y =>
              rw [hap] at h'; cases h'
              obtain ⟨-, -, hu⟩ := ha
              exact Or.inr ⟨rfl, .f [y], .constant c x y a ((apply_iff a x y).1 hap), ⟨c, rfl⟩, rfl, hu⟩
            | error =>
              exfalso
              unfold Activation.apply clamp at hap
              split at hap
              · split at hap <;> cases hap
              · rename_i hcl; split at hcl <;> cases hcl
              · cases hap
            | panic => rw [hap] at h'; cases h'; exact absurd rfl ho
          · cases h; exact Or.inl ⟨rfl, rfl, fun v' hv => by cases hv⟩
  | rbf ps interp =>
    cases st with
    | none => rcases ha with ⟨_, hc⟩ | ⟨_, hc⟩ <;> cases hc
    | value v => obtain ⟨⟨c, hc⟩, -⟩ := ha; cases hc
    | rbf profile xs ys =>
      obtain ⟨ps', interp', hp, rfl, rfl, hprof⟩ := ha
      cases hp
      cases v with
      | f values =>
        simp only [setVariables] at h
        by_cases hl : values.length = ps.length
        · rw [if_pos hl] at h
          obtain ⟨p, h1, rfl, rfl⟩ := setPoints_ok h ho
          refine Or.inr ⟨rfl, .f values, .rbfValues _ _ _ _ hl, ps, interp, rfl, rfl, rfl, ?_⟩
          rw [← rbfCurrent_points ps]
          exact h1
        · rw [if_neg hl] at h; cases h
          refine Or.inl ⟨rfl, rfl, ?_⟩
          intro v' hv; cases hv; exact hl (by assumption)
      | u values =>
        simp only [setVariables] at h
        by_cases hl : values.length = ps.length
        · rw [if_pos hl] at h
          obtain ⟨p, h1, rfl, rfl⟩ := setPoints_ok h ho
          refine Or.inr ⟨rfl, .u values, .rbfDays _ _ _ _ hl, ps, interp, rfl, rfl, rfl, ?_⟩
          rw [← rbfCurrent_points ps]
          exact h1
        · rw [if_neg hl] at h; cases h
          refine Or.inl ⟨rfl, rfl, ?_⟩
          intro v' hv; cases hv; exact hl (by assumption)

/-- The whole state agrees with the records of a history. -/
structure Tracks (net : List Param) (s : List Scen) (ops : List Op) : Prop where
  len : ∀ sc ∈ s, sc.internals.length = net.length
  agrees : ∀ (k i : Nat) (sc : Scen) (p : Param) (st : Internal), s[k]? = some sc → net[i]? = some p →
    sc.internals[i]? = some st → ∃ l, Recorded p i k ops l ∧ Agrees p l st

theorem setScen_eq {p : Param} {i : Nat} {v : Vals} {cfg : Config} {sc : Scen} {st : Internal}
    (h : sc.internals[i]? = some st) : setScen p i v cfg sc =
      ({ sc with internals := sc.internals.set i (setVariables p v cfg st).1 },
        (setVariables p v cfg st).2) := by
  unfold setScen; rw [h]

/-- Setting in one scenario. -/
theorem setScen_spec {p : Param} {i : Nat} {v : Vals} {cfg : Config} {sc sc' : Scen} {l : Last}
    {o : Outcome Unit} {st : Internal} (hst : sc.internals[i]? = some st) (ha : Agrees p l st)
    (h : setScen p i v cfg sc = (sc', o)) (ho : o ≠ .panic) :
    (o = .error ∧ sc' = sc ∧ ∀ v', ¬ Accepted p v cfg v') ∨
      (o = .ok () ∧ ∃ st' v', sc' = { sc with internals := sc.internals.set i st' } ∧
        Accepted p v cfg v' ∧ Agrees p (l.put v') st') := by
  rw [setScen_eq hst] at h
  obtain ⟨st', o', hs⟩ : ∃ st' o', setVariables p v cfg st = (st', o') := ⟨_, _, rfl⟩
  rw [hs] at h
  cases h
  rcases agrees_set ha hs ho with ⟨rfl, rfl, h1⟩ | ⟨rfl, v', h1, h2⟩
  · refine Or.inl ⟨rfl, ?_, h1⟩
    have : sc.internals.set i st' = sc.internals := by
      have hi := (List.getElem?_eq_some_iff.1 hst)
      obtain ⟨hi, he⟩ := hi
      rw [← he]; simp
    rw [this]
  · exact Or.inr ⟨rfl, st', v', rfl, h1, h2⟩

theorem Accepted.unique {p : Param} {v : Vals} {cfg : Config} {v₁ v₂ : Vals}
    (h₁ : Accepted p v cfg v₁) (h₂ : Accepted p v cfg v₂) : v₁ = v₂ := by
  cases h₁ with
  | constant c x y a h =>
    cases h₂ with
    | constant _ _ y' _ h' =>
      rw [← apply_iff] at h h'
      rw [h] at h'; cases h'; rfl
  | rbfValues => cases h₂; rfl
  | rbfDays => cases h₂; rfl

/-- The loop over scenarios: nothing accepted and nothing changed, or accepted everywhere. -/
theorem setLoop_spec {p : Param} {i : Nat} {v : Vals} {cfg : Config} : ∀ {s s' : List Scen}
    {o : Outcome Unit},
    (∀ sc ∈ s, ∃ st l, sc.internals[i]? = some st ∧ Agrees p l st) →
    setLoop p i v cfg s = (s', o) → o ≠ .panic →
    (o = .error ∧ s' = s ∧ ∀ v', ¬ Accepted p v cfg v') ∨
      (o = .ok () ∧ s'.length = s.length ∧ ∀ (k : Nat) (sc : Scen), s[k]? = some sc →
        ∃ sc', s'[k]? = some sc' ∧ setScen p i v cfg sc = (sc', .ok ())) := by
  intro s
  induction s with
  | nil => intro s' o _ h _; cases h; exact Or.inr ⟨rfl, rfl, by simp⟩
  | cons sc rest ih =>
    intro s' o ha h ho
    obtain ⟨st, l, hst, hag⟩ := ha sc (List.mem_cons_self ..)
    obtain ⟨sc', o', hs⟩ : ∃ sc' o', setScen p i v cfg sc = (sc', o') := ⟨_, _, rfl⟩
    simp only [setLoop, hs] at h
    cases o' with
    | ok u =>
      obtain ⟨rest', o'', hr⟩ : ∃ rest' o'', setLoop p i v cfg rest = (rest', o'') := ⟨_, _, rfl⟩
      simp only [hr] at h
      cases h
      rcases ih (fun sc hsc => ha sc (List.mem_cons_of_mem _ hsc)) hr ho with ⟨rfl, rfl, h1⟩ |
        ⟨rfl, h1, h2⟩
      · rcases setScen_spec hst hag hs (by simp) with ⟨h3, -⟩ | ⟨-, _, v', -, h3, -⟩
        · cases h3
        · exact absurd h3 (h1 v')
      · refine Or.inr ⟨rfl, by simp [h1], ?_⟩
        intro k sc₀ hk
        cases k with
        | zero => simp only [List.getElem?_cons_zero, Option.some_inj] at hk; subst hk; exact ⟨sc', rfl, hs⟩
        | succ k => exact h2 k sc₀ hk
    | error =>
      cases h
      rcases setScen_spec hst hag hs (by simp) with ⟨-, h3, h4⟩ | ⟨h3, -⟩
      · exact Or.inl ⟨rfl, by rw [h3], h4⟩
      · cases h3
    | panic => cases h; exact absurd rfl ho

theorem not_variable {p : Param} {v : Vals} (h : p.isVariable v.which = false) (cfg : Config) (v' : Vals) :
    ¬ Accepted p v cfg v' := by
  intro ha
  cases ha <;> cases h

theorem getElem?_of_len {α β : Type} {a : List α} {b : List β} (h : a.length = b.length) {i : Nat} {x : β}
    (hx : b[i]? = some x) : ∃ y, a[i]? = some y := by
  have := (List.getElem?_eq_some_iff.1 hx).1
  exact ⟨a[i], List.getElem?_eq_getElem (by omega)⟩

/-- Operations that change nothing and accept nothing. -/
theorem Tracks.unchanged {net : List Param} {s : List Scen} {ops : List Op} (h : Tracks net s ops) (op : Op)
    (hr : ∀ i k p v cfg, net[i]? = some p → op.addresses i k = some (v, cfg) → ∀ v', ¬ Accepted p v cfg v') :
    Tracks net s (ops ++ [op]) := by
  refine ⟨h.len, ?_⟩
  intro k i sc p st hk hp hst
  obtain ⟨l, h1, h2⟩ := h.agrees k i sc p st hk hp hst
  refine ⟨l, ?_, h2⟩
  cases ha : op.addresses i k with
  | none => exact .other op h1 ha
  | some vc => exact .rejected op vc.1 vc.2 h1 ha (hr i k p vc.1 vc.2 hp ha)

/-- One successful setting, in all scenarios addressed. -/
theorem Tracks.changed {net : List Param} {s s' : List Scen} {ops : List Op} (h : Tracks net s ops) (op : Op)
    {i : Nat} {p : Param} {v : Vals} {cfg : Config} (hp : net[i]? = some p)
    (hl : s'.length = s.length)
    (hop : ∀ i' k, (op.addresses i' k = none ∧ (i' ≠ i ∨ s'[k]? = s[k]?)) ∨
      (i' = i ∧ op.addresses i' k = some (v, cfg) ∧
        ∀ sc, s[k]? = some sc → ∃ sc', s'[k]? = some sc' ∧ setScen p i v cfg sc = (sc', .ok ())))
    (hel : ∀ (k : Nat) (sc : Scen), s[k]? = some sc →
      s'[k]? = some sc ∨ ∃ sc', s'[k]? = some sc' ∧ setScen p i v cfg sc = (sc', .ok ())) :
    Tracks net s' (ops ++ [op]) := by
  have hset : ∀ sc sc' : Scen, sc ∈ s → setScen p i v cfg sc = (sc', .ok ()) →
      ∃ st', sc' = { sc with internals := sc.internals.set i st' } := by
    intro sc sc' hsc hs
    obtain ⟨st, hst⟩ := getElem?_of_len (h.len sc hsc) hp
    rw [setScen_eq hst] at hs
    exact ⟨_, (congrArg Prod.fst hs).symm⟩
  have hold : ∀ (k : Nat) (sc' : Scen), s'[k]? = some sc' → ∃ sc : Scen, s[k]? = some sc := by
    intro k sc' hk
    exact getElem?_of_len hl.symm hk
  constructor
  · intro sc' hsc'
    obtain ⟨k, hk, he⟩ := List.getElem_of_mem hsc'
    have hk' : s'[k]? = some sc' := by rw [List.getElem?_eq_getElem hk, he]
    obtain ⟨sc, hsc⟩ := hold k sc' hk'
    have hmem := List.mem_of_getElem? hsc
    rcases hel k sc hsc with h1 | ⟨sc₁, h1, h2⟩
    · rw [h1] at hk'; cases hk'; exact h.len _ hmem
    · rw [h1] at hk'; cases hk'
      obtain ⟨st', rfl⟩ := hset sc _ hmem h2
      simpa using h.len sc hmem
  · intro k i' sc' p' st' hk' hp' hst'
    obtain ⟨sc, hsc⟩ := hold k sc' hk'
    have hmem := List.mem_of_getElem? hsc
    rcases hop i' k with ⟨h1, h2⟩ | ⟨rfl, h1, h2⟩
    · have hsame : sc.internals[i']? = some st' := by
        rcases h2 with h2 | h2
        · rcases hel k sc hsc with h3 | ⟨sc₁, h3, h4⟩
          · rw [h3] at hk'; cases hk'; exact hst'
          · rw [h3] at hk'; cases hk'
            obtain ⟨st₁, rfl⟩ := hset sc _ hmem h4
            simp only at hst'
            rwa [List.getElem?_set_ne (Ne.symm h2)] at hst'
        · rw [h2, hsc] at hk'; cases hk'; exact hst'
      obtain ⟨l, h5, h6⟩ := h.agrees k i' sc p' st' hsc hp' hsame
      exact ⟨l, .other op h5 h1, h6⟩
    · rw [hp] at hp'; cases hp'
      obtain ⟨st, hst⟩ := getElem?_of_len (h.len sc hmem) hp
      obtain ⟨l, h5, h6⟩ := h.agrees k i' sc p st hsc hp hst
      obtain ⟨sc₁, h7, h8⟩ := h2 sc hsc
      rw [h7] at hk'; cases hk'
      rcases setScen_spec hst h6 h8 (by simp) with ⟨h9, -⟩ | ⟨-, st₁, v', rfl, h10, h11⟩
      · cases h9
      · have hi := (List.getElem?_eq_some_iff.1 hst).1
        simp only [List.getElem?_set_self hi, Option.some_inj] at hst'
        subst hst'
        exact ⟨_, .accepted op v v' cfg h5 h1 h10, h11⟩

theorem Tracks.exec {net : List Param} {s s' : List Scen} {ops : List Op} {o : Outcome Unit}
    (h : Tracks net s ops) (op : Op) (he : exec net s op = (s', o)) (ho : o ≠ .panic) :
    Tracks net s' (ops ++ [op]) ∧ s'.length = s.length ∧ (o = .error → s' = s) := by
  cases op with
  | all i v cfg =>
    have he' : setAll net i v cfg s = (s', o) := he
    unfold setAll at he'
    cases hp : net[i]? with
    | none =>
      rw [hp] at he'; cases he'
      refine ⟨h.unchanged _ ?_, rfl, fun _ => rfl⟩
      intro i' k p' v' cfg' hp' ha
      simp only [Op.addresses] at ha
      split at ha
      · rename_i hi; subst hi; rw [hp] at hp'; cases hp'
      · cases ha
    | some p =>
      rw [hp] at he'
      simp only at he'
      by_cases hv : p.isVariable v.which = true
      · rw [if_pos hv] at he'
        have hall : ∀ sc ∈ s, ∃ st l, sc.internals[i]? = some st ∧ Agrees p l st := by
          intro sc hsc
          obtain ⟨st, hst⟩ := getElem?_of_len (h.len sc hsc) hp
          obtain ⟨k, hk, hke⟩ := List.getElem_of_mem hsc
          obtain ⟨l, -, hl⟩ := h.agrees k i sc p st (by rw [List.getElem?_eq_getElem hk, hke]) hp hst
          exact ⟨st, l, hst, hl⟩
        rcases setLoop_spec hall he' ho with ⟨rfl, rfl, h1⟩ | ⟨rfl, h1, h2⟩
        · refine ⟨h.unchanged _ ?_, rfl, fun _ => rfl⟩
          intro i' k p' v' cfg' hp' ha
          simp only [Op.addresses] at ha
          split at ha
          · rename_i hi; subst hi; rw [hp] at hp'; cases hp'; cases ha; exact h1
          · cases ha
        · refine ⟨h.changed _ hp h1 ?_ (fun k sc hk => Or.inr (h2 k sc hk)), h1, by simp⟩
          intro i' k
          by_cases hi : i' = i
          · exact Or.inr ⟨hi, by simp [Op.addresses, hi], h2 k⟩
          · exact Or.inl ⟨by simp [Op.addresses, Ne.symm hi], Or.inl hi⟩
      · rw [if_neg hv] at he'; cases he'
        refine ⟨h.unchanged _ ?_, rfl, fun _ => rfl⟩
        intro i' k p' v' cfg' hp' ha
        simp only [Op.addresses] at ha
        split at ha
        · rename_i hi; subst hi; rw [hp] at hp'; cases hp'; cases ha
          exact not_variable (by simpa using hv) cfg
        · cases ha
  | one i k v cfg =>
    have he' : setOne net i k v cfg s = (s', o) := he
    unfold setOne at he'
    cases hp : net[i]? with
    | none =>
      rw [hp] at he'; cases he'
      refine ⟨h.unchanged _ ?_, rfl, fun _ => rfl⟩
      intro i' k p' v' cfg' hp' ha
      simp only [Op.addresses] at ha
      split at ha
      · rename_i hi; obtain ⟨hi, -⟩ := hi; subst hi; rw [hp] at hp'; cases hp'
      · cases ha
    | some p =>
      rw [hp] at he'
      simp only at he'
      by_cases hv : p.isVariable v.which = true
      · rw [if_pos hv] at he'
        cases hk : s[k]? with
        | none => rw [hk] at he'; cases he'; exact absurd rfl ho
        | some sc =>
          rw [hk] at he'
          simp only at he'
          have hsc := List.mem_of_getElem? hk
          have hklt := (List.getElem?_eq_some_iff.1 hk).1
          obtain ⟨st, hst⟩ := getElem?_of_len (h.len sc hsc) hp
          obtain ⟨l, -, hl⟩ := h.agrees k i sc p st hk hp hst
          obtain ⟨sc', o', hs⟩ : ∃ sc' o', setScen p i v cfg sc = (sc', o') := ⟨_, _, rfl⟩
          rw [hs] at he'
          cases he'
          rcases setScen_spec hst hl hs ho with ⟨rfl, rfl, h1⟩ | ⟨rfl, -⟩
          · have hsame : s.set k sc' = s := by
              have := (List.getElem?_eq_some_iff.1 hk).2
              rw [← this]; simp
            rw [hsame]
            refine ⟨h.unchanged _ ?_, rfl, fun _ => rfl⟩
            intro i' k' p' v' cfg' hp' ha
            simp only [Op.addresses] at ha
            split at ha
            · rename_i hi; obtain ⟨hi, -⟩ := hi; subst hi; rw [hp] at hp'; cases hp'; cases ha; exact h1
            · cases ha
          · refine ⟨h.changed (v := v) (cfg := cfg) _ hp (by simp) ?_ ?_, by simp, by simp⟩
            · intro i' k'
              by_cases hi : i' = i ∧ k' = k
              · obtain ⟨rfl, rfl⟩ := hi
                refine Or.inr ⟨rfl, by simp [Op.addresses], ?_⟩
                intro sc₁ hsc₁
                rw [hk] at hsc₁; cases hsc₁
                exact ⟨sc', by rw [List.getElem?_set_self hklt], hs⟩
              · refine Or.inl ⟨?_, ?_⟩
                · simp only [Op.addresses]
                  rw [if_neg]
                  rintro ⟨rfl, rfl⟩
                  exact hi ⟨rfl, rfl⟩
                · by_cases hi' : i' = i
                  · right
                    have : k' ≠ k := fun hkk => hi ⟨hi', hkk⟩
                    rw [List.getElem?_set_ne (Ne.symm this)]
                  · exact Or.inl hi'
            · intro k' sc₁ hsc₁
              by_cases hkk : k' = k
              · subst hkk
                rw [hk] at hsc₁; cases hsc₁
                exact Or.inr ⟨sc', by rw [List.getElem?_set_self hklt], hs⟩
              · left
                rw [List.getElem?_set_ne (Ne.symm hkk)]; exact hsc₁
      · rw [if_neg hv] at he'; cases he'
        refine ⟨h.unchanged _ ?_, rfl, fun _ => rfl⟩
        intro i' k p' v' cfg' hp' ha
        simp only [Op.addresses] at ha
        split at ha
        · rename_i hi; obtain ⟨hi, -⟩ := hi; subst hi; rw [hp] at hp'; cases hp'; cases ha
          exact not_variable (by simpa using hv) cfg
        · cases ha

theorem Tracks.run {net : List Param} : ∀ {ops prev : List Op} {s s' : List Scen}, Tracks net s prev →
    runOps net s ops = some s' → Tracks net s' (prev ++ ops) ∧ s'.length = s.length := by
  intro ops
  induction ops with
  | nil => intro prev s s' h hr; cases hr; simpa using h
  | cons op ops ih =>
    intro prev s s' h hr
    obtain ⟨s₁, o, he⟩ : ∃ s₁ o, Variables.exec net s op = (s₁, o) := ⟨_, _, rfl⟩
    unfold runOps at hr
    rw [he] at hr
    cases o with
    | panic => cases hr
    | ok u =>
      obtain ⟨h1, h2, -⟩ := h.exec op he (by simp)
      obtain ⟨h3, h4⟩ := ih h1 hr
      exact ⟨by simpa using h3, h4.trans h2⟩
    | error =>
      obtain ⟨h1, h2, -⟩ := h.exec op he (by simp)
      obtain ⟨h3, h4⟩ := ih h1 hr
      exact ⟨by simpa using h3, h4.trans h2⟩

/-! ## Setting up -/

theorem setupInternals_spec : ∀ {net : List Param} {sts : List Internal}, setupInternals net = .ok sts →
    sts.length = net.length ∧ ∀ (i : Nat) (p : Param) (st : Internal), net[i]? = some p → sts[i]? = some st →
      setupInternal p = .ok st := by
  intro net
  induction net with
  | nil => intro sts h; cases h; simp
  | cons p ps ih =>
    intro sts h
    unfold setupInternals at h
    split at h
    · rename_i st hst
      split at h
      · rename_i sts' hsts
        cases h
        obtain ⟨h1, h2⟩ := ih hsts
        refine ⟨by simp [h1], ?_⟩
        intro i p' st' hp hs
        cases i with
        | zero => cases hp; cases hs; exact hst
        | succ i => exact h2 i p' st' hp hs
      · cases h
      · cases h
    · cases h
    · cases h

theorem Tracks.setup {net : List Param} {n : Nat} {s : List Scen} (h : setupAll net n = .ok s) :
    Tracks net s [] ∧ s.length = n := by
  unfold setupAll setupScen at h
  cases hs : setupInternals net with
  | error => rw [hs] at h; cases h
  | panic => rw [hs] at h; cases h
  | ok sts =>
    rw [hs] at h; cases h
    obtain ⟨h1, h2⟩ := setupInternals_spec hs
    refine ⟨⟨?_, ?_⟩, by simp⟩
    · intro sc hsc
      rw [List.eq_of_mem_replicate hsc]; exact h1
    · intro k i sc p st hk hp hst
      have := List.eq_of_mem_replicate (List.mem_of_getElem? hk)
      subst this
      exact ⟨_, .nil, agrees_setup (h2 i p st hp hst)⟩

/-! ## Constants -/

theorem setLoop_consts (p : Param) (i : Nat) (v : Vals) (cfg : Config) : ∀ s : List Scen,
    (setLoop p i v cfg s).1.map Scen.consts = s.map Scen.consts := by
  have one : ∀ sc, (setScen p i v cfg sc).1.consts = sc.consts := by
    intro sc; unfold setScen; split <;> rfl
  intro s
  induction s with
  | nil => rfl
  | cons sc rest ih =>
    simp only [setLoop]
    split
    · simp [one, ih]
    · simp [one]

theorem exec_consts (net : List Param) (s : List Scen) (op : Op) :
    (exec net s op).1.map Scen.consts = s.map Scen.consts := by
  cases op with
  | all i v cfg =>
    simp only [exec, setAll]
    split
    · rfl
    · split
      · exact setLoop_consts ..
      · rfl
  | one i k v cfg =>
    simp only [exec, setOne]
    split
    · rfl
    · split
      · split
        · rfl
        · rename_i p _ _ _ sc hsc
          have one : (setScen p i v cfg sc).1.consts = sc.consts := by
            unfold setScen; split <;> rfl
          simp only [List.map_set, one]
          have := List.getElem?_eq_some_iff.1 hsc
          obtain ⟨hk, rfl⟩ := this
          exact List.ext_getElem (by simp) (fun j h1 h2 => by
            rw [List.getElem_set]; split
            · rename_i hj; subst hj; simp
            · rfl)
      · rfl

theorem runOps_consts (net : List Param) : ∀ (ops : List Op) (s s' : List Scen), runOps net s ops = some s' →
    s'.map Scen.consts = s.map Scen.consts := by
  intro ops
  induction ops with
  | nil => intro s s' h; cases h; rfl
  | cons op ops ih =>
    intro s s' h
    have hc := exec_consts net s op
    unfold runOps at h
    split at h
    · cases h
    · rename_i s₁ o _ he
      rw [he] at hc
      exact (ih _ _ h).trans hc

end Verif.Variables
