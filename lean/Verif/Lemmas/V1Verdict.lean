import Verif.Spec.V1

/-! # The conversion succeeds, fails or stops as its components do -/

namespace Verif.V1

/-- The result of a conversion is as its verdict, with errors under a name with property `P`. -/
def Res.as {α : Type} (P : String → Prop) (r : Res α) : Verdict → Prop
  | .fine => ∃ a, r = .ok a
  | .wrong attr cause => ∃ n, P n ∧ r = .err ⟨n, attr, cause⟩
  | .stops => r = .panic

/-- The same without name and attribute. -/
def Res.asValue {α : Type} (r : Res α) : Verdict → Prop
  | .fine => ∃ a, r = .ok a
  | .wrong _ cause => ∃ p : Problem, p.cause = cause ∧ r = .err p
  | .stops => r = .panic

theorem extract_as (p : Param) (r : Res Definition × Data) (P : String → Prop) (h : r.1.as P p.verdict) :
    (extract r).1.asValue p.verdict := by
  obtain ⟨r, d⟩ := r
  cases hv : p.verdict with
  | fine =>
    rw [hv] at h
    obtain ⟨a, ha⟩ := h
    simp only at ha
    subst ha
    cases a with
    | parameter c => exact ⟨_, rfl⟩
    | series o s => exact ⟨_, rfl⟩
  | wrong attr c =>
    rw [hv] at h
    obtain ⟨n, -, ha⟩ := h
    simp only at ha
    subst ha
    exact ⟨_, rfl, rfl⟩
  | stops =>
    rw [hv] at h
    have h : r = .panic := h
    subst h
    rfl

theorem convMeta_as (md : Meta) (parent : Option String) (d : Data) :
    (convMeta md parent d).1.as (fun n => ∀ x, md.name = some x → n = x) md.verdict ∧
      ∀ a, (convMeta md parent d).1 = .ok a → ∀ x, md.name = some x → a = x := by
  cases md with
  | missing => exact ⟨⟨_, rfl⟩, fun a _ x hx => by simp [Meta.name] at hx⟩
  | given name tags =>
    cases name with
    | none =>
      cases tags with
      | true => exact ⟨⟨_, rfl⟩, fun a _ x hx => by simp [Meta.name] at hx⟩
      | false => exact ⟨⟨_, fun x hx => by simp [Meta.name] at hx, rfl⟩, fun a h => by simp [convMeta] at h⟩
    | some n =>
      cases tags with
      | true =>
        refine ⟨⟨_, rfl⟩, fun a h x hx => ?_⟩
        simp [convMeta] at h
        simp [Meta.name] at hx
        rw [← h, hx]
      | false =>
        refine ⟨⟨n, fun x hx => ?_, rfl⟩, fun a h => by simp [convMeta] at h⟩
        simp [Meta.name] at hx
        exact hx

theorem Res.as_mono {α : Type} {P Q : String → Prop} {r : Res α} {v : Verdict} (h : r.as P v) (hpq : ∀ n, P n → Q n) :
    r.as Q v := by
  cases v with
  | fine => exact h
  | wrong a c => obtain ⟨n, hn, hr⟩ := h; exact ⟨n, hpq n hn, hr⟩
  | stops => exact h

theorem convDataFrame_as (name : String) (url table column scenario : Option String) (d : Data) :
    (convDataFrame name url table column scenario d).1.as (· = name)
      (if url.isNone ∧ table.isNone then .wrong "url" .missingAttribute
      else if column.isSome ∧ scenario.isSome then .wrong "column" .ambiguousAttributes
      else .fine) := by
  cases url <;> cases table <;> cases column <;> cases scenario <;> simp [convDataFrame, Res.as]

mutual

theorem convValue_as (index : Bool) (v : Value) (parent : Option String) (d : Data) :
    (convValue index v parent d).1.asValue (v.verdict index) := by
  match v with
  | .constant q =>
    simp only [convValue, Value.verdict]
    by_cases h : index = true ∧ ¬ (q.den = 1 ∧ 0 ≤ q)
    · have h2 : (index && (q.den != 1 || decide (q < 0))) = true := by
        obtain ⟨h1, h2⟩ := h
        subst h1
        by_cases h3 : q.den = 1
        · have : q < 0 := by
            by_contra h4
            exact h2 ⟨h3, not_lt.1 h4⟩
          simp [this]
        · simp [h3]
      rw [if_pos h, if_pos h2]
      exact ⟨_, rfl, rfl⟩
    · have h2 : ¬ (index && (q.den != 1 || decide (q < 0))) = true := by
        intro h3
        simp only [Bool.and_eq_true, Bool.or_eq_true, bne_iff_ne, ne_eq, decide_eq_true_eq] at h3
        refine h ⟨h3.1, fun h4 => ?_⟩
        rcases h3.2 with h5 | h5
        · exact h5 h4.1
        · exact absurd h4.2 (not_le.2 h5)
      rw [if_neg h, if_neg h2]
      exact ⟨_, rfl⟩
  | .reference n => exact ⟨_, by rw [convValue]⟩
  | .table t ok =>
    simp only [convValue, Value.verdict]
    cases ok with
    | true => exact ⟨_, rfl⟩
    | false => exact ⟨_, rfl, rfl⟩
  | .inline p =>
    simp only [convValue, Value.verdict]
    exact extract_as p _ _ (convParam_as p parent d)

theorem convFields_as (f : Fields) (name : String) (parent : Option String) (d : Data) :
    (convFields f name parent d).1.as (· = name) f.verdict := by
  match f with
  | .done => exact ⟨[], by rw [convFields]⟩
  | .value attr v rest =>
    have hv := convValue_as false v (parent.or (some name)) d
    simp only [convFields, Fields.verdict]
    rcases hr : convValue false v (parent.or (some name)) d with ⟨r, d1⟩
    rw [hr] at hv
    cases hvv : v.verdict false with
    | fine =>
      rw [hvv] at hv
      obtain ⟨m, hm⟩ := hv
      simp only at hm
      subst hm
      have hf := convFields_as rest name parent d1
      simp only [Verdict.at, Verdict.and]
      rcases hr2 : convFields rest name parent d1 with ⟨r2, d2⟩
      rw [hr2] at hf
      cases hvr : rest.verdict with
      | fine =>
        rw [hvr] at hf
        obtain ⟨as, has⟩ := hf
        simp only at has
        subst has
        exact ⟨_, rfl⟩
      | wrong a c =>
        rw [hvr] at hf
        obtain ⟨n, hn, hr⟩ := hf
        simp only at hr
        subst hr
        exact ⟨n, hn, rfl⟩
      | stops =>
        rw [hvr] at hf
        have hf : r2 = .panic := hf
        subst hf
        rfl
    | wrong a c =>
      rw [hvv] at hv
      obtain ⟨p, hp, hr⟩ := hv
      simp only at hr
      subst hr
      exact ⟨name, rfl, by simp [hp]⟩
    | stops =>
      rw [hvv] at hv
      have hv : r = .panic := hv
      subst hv
      rfl
  | .index attr v rest =>
    have hv := convValue_as true v (parent.or (some name)) d
    simp only [convFields, Fields.verdict]
    rcases hr : convValue true v (parent.or (some name)) d with ⟨r, d1⟩
    rw [hr] at hv
    cases hvv : v.verdict true with
    | fine =>
      rw [hvv] at hv
      obtain ⟨m, hm⟩ := hv
      simp only at hm
      subst hm
      have hf := convFields_as rest name parent d1
      simp only [Verdict.at, Verdict.and]
      rcases hr2 : convFields rest name parent d1 with ⟨r2, d2⟩
      rw [hr2] at hf
      cases hvr : rest.verdict with
      | fine =>
        rw [hvr] at hf
        obtain ⟨as, has⟩ := hf
        simp only at has
        subst has
        exact ⟨_, rfl⟩
      | wrong a c =>
        rw [hvr] at hf
        obtain ⟨n, hn, hr⟩ := hf
        simp only at hr
        subst hr
        exact ⟨n, hn, rfl⟩
      | stops =>
        rw [hvr] at hf
        have hf : r2 = .panic := hf
        subst hf
        rfl
    | wrong a c =>
      rw [hvv] at hv
      obtain ⟨p, hp, hr⟩ := hv
      simp only at hr
      subst hr
      exact ⟨name, rfl, by simp [hp]⟩
    | stops =>
      rw [hvv] at hv
      have hv : r = .panic := hv
      subst hv
      rfl
  | .node attr target aware rest =>
    have hf := convFields_as rest name parent d
    simp only [convFields, Fields.verdict]
    rcases hr2 : convFields rest name parent d with ⟨r2, d2⟩
    rw [hr2] at hf
    cases hvr : rest.verdict with
    | fine =>
      rw [hvr] at hf
      obtain ⟨as, has⟩ := hf
      simp only at has
      subst has
      exact ⟨_, rfl⟩
    | wrong a c =>
      rw [hvr] at hf
      obtain ⟨n, hn, hr⟩ := hf
      simp only at hr
      subst hr
      exact ⟨n, hn, rfl⟩
    | stops =>
      rw [hvr] at hf
      have hf : r2 = .panic := hf
      subst hf
      rfl
  | .check attr ok why rest =>
    simp only [convFields, Fields.verdict]
    cases ok with
    | true => exact convFields_as rest name parent d
    | false => exact ⟨name, rfl, rfl⟩

theorem convParam_as (p : Param) (parent : Option String) (d : Data) :
    (convParam p parent d).1.as (fun n => ∀ x, p.name = some x → n = x) p.verdict := by
  match p with
  | .core ty md fields =>
    obtain ⟨hm, hn⟩ := convMeta_as md parent d
    simp only [convParam, Param.verdict, Param.name]
    rcases hr : convMeta md parent d with ⟨r, d1⟩
    rw [hr] at hm hn
    cases hvv : md.verdict with
    | fine =>
      rw [hvv] at hm
      obtain ⟨name, hm⟩ := hm
      simp only at hm
      subst hm
      have hf := convFields_as fields name parent d1
      simp only [Verdict.and]
      rcases hr2 : convFields fields name parent d1 with ⟨r2, d2⟩
      rw [hr2] at hf
      cases hvr : fields.verdict with
      | fine =>
        rw [hvr] at hf
        obtain ⟨as, has⟩ := hf
        simp only at has
        subst has
        exact ⟨_, rfl⟩
      | wrong a c =>
        rw [hvr] at hf
        obtain ⟨n, hnn, hr⟩ := hf
        simp only at hr
        subst hr
        subst hnn
        exact ⟨n, hn n rfl, rfl⟩
      | stops =>
        rw [hvr] at hf
        have hf : r2 = .panic := hf
        subst hf
        rfl
    | wrong a c =>
      rw [hvv] at hm
      obtain ⟨n, hp, hr⟩ := hm
      simp only at hr
      subst hr
      exact ⟨n, hp, rfl⟩
    | stops =>
      rw [hvv] at hm
      have hv : r = .panic := hm
      subst hv
      rfl
  | .controlCurve md storage curves given values =>
    simp only [convParam, Param.verdict, Param.name]
    -- the second attempt
    have second : ∀ d', ((match convMeta md parent d' with
        | (.ok name, d1) =>
          match convFields curves name parent d1 with
          | (.ok cs, d2) =>
            if given = true then (.err ⟨name, "values", .unexpectedAttribute⟩, d2)
            else
              (.ok (.parameter ⟨"ControlCurveIndex", name, cs ++ [⟨"storage_node", false, nodeMetric d2 storage false⟩]⟩),
                d2)
          | (.err p, d2) => (.err p, d2)
          | (.panic, d2) => (.panic, d2)
        | (.err p, d1) => (.err p, d1)
        | (.panic, d1) => (.panic, d1)) : Res Definition × Data).1.as (fun n => ∀ x, md.name = some x → n = x)
          ((md.verdict.and curves.verdict).and (if given = true then .wrong "values" .unexpectedAttribute else .fine)) := by
      intro d'
      obtain ⟨hm, hn⟩ := convMeta_as md parent d'
      rcases hr : convMeta md parent d' with ⟨r, d1⟩
      rw [hr] at hm hn
      cases hvv : md.verdict with
      | fine =>
        rw [hvv] at hm
        obtain ⟨name, hm⟩ := hm
        simp only at hm
        subst hm
        have hf := convFields_as curves name parent d1
        rcases hr2 : convFields curves name parent d1 with ⟨r2, d2⟩
        rw [hr2] at hf
        cases hvr : curves.verdict with
        | fine =>
          rw [hvr] at hf
          obtain ⟨as, has⟩ := hf
          simp only at has
          subst has
          simp only [hr2]
          cases given with
          | true => exact ⟨_, hn _ rfl, rfl⟩
          | false => exact ⟨_, rfl⟩
        | wrong a c =>
          rw [hvr] at hf
          obtain ⟨n, hnn, hr⟩ := hf
          simp only at hr
          subst hr
          subst hnn
          simp only [hr2]
          exact ⟨_, hn _ rfl, rfl⟩
        | stops =>
          rw [hvr] at hf
          have hf : r2 = .panic := hf
          subst hf
          simp only [hr2]
          rfl
      | wrong a c =>
        rw [hvv] at hm
        obtain ⟨n, hp, hr⟩ := hm
        simp only at hr
        subst hr
        exact ⟨n, hp, rfl⟩
      | stops =>
        rw [hvv] at hm
        have hv : r = .panic := hm
        subst hv
        rfl
    obtain ⟨hm, hn⟩ := convMeta_as md parent d
    rcases hr : convMeta md parent d with ⟨r, d1⟩
    rw [hr] at hm hn
    cases hvv : md.verdict with
    | fine =>
      rw [hvv] at hm second
      obtain ⟨name, hm⟩ := hm
      simp only at hm
      subst hm
      have hf := convFields_as curves name parent d1
      rcases hr2 : convFields curves name parent d1 with ⟨r2, d2⟩
      rw [hr2] at hf
      cases hvr : curves.verdict with
      | fine =>
        rw [hvr] at hf second
        obtain ⟨as, has⟩ := hf
        simp only at has
        subst has
        simp only [hr2]
        cases given with
        | false => exact second d2
        | true =>
          have hf := convFields_as values name parent d2
          rcases hr3 : convFields values name parent d2 with ⟨r3, d3⟩
          rw [hr3] at hf
          cases hv3 : values.verdict with
          | fine =>
            rw [hv3] at hf
            obtain ⟨as, has⟩ := hf
            simp only at has
            subst has
            exact ⟨_, rfl⟩
          | wrong a c =>
            rw [hv3] at hf
            obtain ⟨n, hnn, hr⟩ := hf
            simp only at hr
            subst hr
            exact second d3
          | stops =>
            rw [hv3] at hf
            have hf : r3 = .panic := hf
            subst hf
            rfl
      | wrong a c =>
        rw [hvr] at hf second
        obtain ⟨n, hnn, hr⟩ := hf
        simp only at hr
        subst hr
        simp only [hr2]
        exact second d2
      | stops =>
        rw [hvr] at hf
        have hf : r2 = .panic := hf
        subst hf
        simp only [hr2]
        rfl
    | wrong a c =>
      rw [hvv] at hm second
      obtain ⟨n, hp, hr⟩ := hm
      simp only at hr
      subst hr
      exact second d1
    | stops =>
      rw [hvv] at hm
      have hv : r = .panic := hm
      subst hv
      rfl
  | .dataFrame md url table column scenario =>
    obtain ⟨hm, hn⟩ := convMeta_as md parent d
    simp only [convParam, Param.verdict, Param.name]
    rcases hr : convMeta md parent d with ⟨r, d1⟩
    rw [hr] at hm hn
    cases hvv : md.verdict with
    | fine =>
      rw [hvv] at hm
      obtain ⟨name, hm⟩ := hm
      simp only at hm
      subst hm
      simp only [Verdict.and]
      exact Res.as_mono (convDataFrame_as name url table column scenario d1) fun n h => by subst h; exact hn _ rfl
    | wrong a c =>
      rw [hvv] at hm
      obtain ⟨n, hp, hr⟩ := hm
      simp only at hr
      subst hr
      exact ⟨n, hp, rfl⟩
    | stops =>
      rw [hvv] at hm
      have hv : r = .panic := hm
      subst hv
      rfl
  | .refused name why =>
    refine ⟨name.getD "unnamed", fun x hx => ?_, by rw [convParam]⟩
    simp only [Param.name] at hx
    rw [hx]
    rfl
  | .unimplemented => simp [convParam, Param.verdict, Res.as]

end

end Verif.V1
