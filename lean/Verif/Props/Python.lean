import Verif.Lemmas.Python

/-!
# C103: parameters that call Python

Calls are told what is current, scenarios have objects of their own, and arguments reach Python as they are written. The last two have
exceptions, which are shown.
-/

namespace Verif.Python

variable {O A : Type} {C : Class O A} {P : Common}

/-- **C103 (calls).** Calls in any order, from the objects made at set-up, return the values `vs` exactly if each call of a method that its
object has, told the step, the scenario and under the declared keys the values that metrics and indices have at that time and nothing else,
returns an object that means the value. Nothing of earlier calls is seen besides what objects keep of their own. -/
theorem C103_calls (hP : P.Keyed) {k : Nat} {a a' : A} {w : World O A} (h : setup C k a = some w) {os : Nat → O} (hm : Made C k a os a')
    {es : List Event} (hes : ∀ e ∈ es, e.ctx.scenario < k) (vs : List Value) :
    (∃ w', exec C P es w = .ok (vs, w')) ↔ Runs C P os a' es vs := by
  obtain ⟨h1, rfl, h3⟩ := setup_match (P := P) h hm
  exact exec_iff hP h3 (by rw [h1]; exact hes)

/-- **C103 (objects).** At set-up one object is made for each scenario, one after the other, and set-up fails exactly if making one of them does. -/
theorem C103_objects {k : Nat} (hk : 0 < k) (a : A) :
    (setup C k a).isSome ↔ ∃ os a', Made C k a os a' := by
  constructor
  · intro h
    obtain ⟨w, hw⟩ := Option.isSome_iff_exists.1 h
    obtain ⟨os, ho⟩ := setup_made hk hw
    exact ⟨os, _, ho⟩
  · rintro ⟨os, a', ho⟩
    obtain ⟨w, h1, -⟩ := setup_of ho
    rw [h1]; rfl

/-- **C103 (phases).** A class is refused exactly if it has neither method; otherwise the methods that are called are those it has. -/
theorem C103_phases (C : Class O A) :
    (phases C = .error .noPhase ↔ ∀ m, C.has m = false) ∧ ∀ ms, phases C = .ok ms → ms = [Method.before, .after].filter C.has := by
  unfold phases
  cases h1 : C.has .before <;> cases h2 : C.has .after
  · refine ⟨⟨fun _ m => by cases m <;> assumption, fun _ => rfl⟩, fun ms h => by cases h⟩
  · refine ⟨⟨fun h => (by cases h), fun h => by rw [h .after] at h2; cases h2⟩, fun ms h => ?_⟩
    rw [← Except.ok.inj h]; simp [h1, h2]
  · refine ⟨⟨fun h => (by cases h), fun h => by rw [h .before] at h1; cases h1⟩, fun ms h => ?_⟩
    rw [← Except.ok.inj h]; simp [h1, h2]
  · refine ⟨⟨fun h => (by cases h), fun h => by rw [h .after] at h2; cases h2⟩, fun ms h => ?_⟩
    rw [← Except.ok.inj h]; simp [h1, h2]

/-- **C103 (scenarios, partial).** If a class leaves its arguments as they are, the values of each scenario are those of an object of its own:
made from the arguments, and then called by the calls of this scenario alone. This holds in every order in which the calls of scenarios follow each
other. Missing: classes that change lists or dictionaries among their arguments, for which it is false (`Cases.C103_shared_refuted`). -/
theorem C103_scenarios_partial (hP : P.Keyed) (hl : Leaves C) {k : Nat} {a : A} {w : World O A} (h : setup C k a = some w) {es : List Event}
    (hes : ∀ e ∈ es, e.ctx.scenario < k) (vs : List Value) :
    (∃ w', exec C P es w = .ok (vs, w')) ↔ vs.length = es.length ∧
      ∀ i < k, ∃ o a', C.make a = some (o, a') ∧ Told C P a o (es.filter fun e => e.ctx.scenario = i) (own i es vs) := by
  rcases Nat.eq_zero_or_pos k with rfl | hk
  · have : es = [] := List.eq_nil_iff_forall_not_mem.2 fun e he => absurd (hes e he) (Nat.not_lt_zero _)
    subst this
    constructor
    · rintro ⟨w', h1⟩
      simp only [exec, Except.ok.injEq, Prod.mk.injEq] at h1
      exact ⟨by rw [← h1.1]; rfl, fun i hi => absurd hi (Nat.not_lt_zero _)⟩
    · rintro ⟨h1, -⟩
      obtain rfl := List.length_eq_zero_iff.1 h1
      exact ⟨w, rfl⟩
  obtain ⟨os, ho⟩ := setup_made hk h
  obtain ⟨e1, e2⟩ := made_leaves hl ho
  rw [C103_calls hP h ho hes, e1, runs_told hl]
  refine and_congr_right fun hlen => ⟨fun h1 i hi => ⟨os i, a, e2 i hi, h1 i⟩, fun h1 i => ?_⟩
  by_cases hi : i < k
  · obtain ⟨o, a', g1, g2⟩ := h1 i hi
    rw [e2 i hi, Option.some.injEq, Prod.mk.injEq] at g1
    rw [g1.1]; exact g2
  · have hf : (es.filter fun e => decide (e.ctx.scenario = i)) = [] := by
      rw [List.filter_eq_nil_iff]
      intro e he
      have := hes e he
      simp only [decide_eq_true_eq]
      omega
    have ho : own i es vs = [] := by
      unfold own
      rw [List.map_eq_nil_iff, List.filter_eq_nil_iff]
      intro p hp
      have := hes _ (List.of_mem_zip hp).1
      simp only [decide_eq_true_eq]
      omega
    rw [hf, ho]
    exact .done _

/-- **C103 (order).** If a class leaves its arguments as they are, the values of a scenario do not depend on the calls of other scenarios, on
their number or on the order in which they are calculated. -/
theorem C103_order_partial (hP : P.Keyed) (hl : Leaves C) {k k' : Nat} {a : A} {w w₁ w' w₁' : World O A} (h : setup C k a = some w)
    (h' : setup C k' a = some w') {es es' : List Event} (hes : ∀ e ∈ es, e.ctx.scenario < k) (hes' : ∀ e ∈ es', e.ctx.scenario < k')
    {vs vs' : List Value} (hr : exec C P es w = .ok (vs, w₁)) (hr' : exec C P es' w' = .ok (vs', w₁')) {i : Nat} (hi : i < k) (hi' : i < k')
    (hsame : (es.filter fun e => e.ctx.scenario = i) = es'.filter fun e => e.ctx.scenario = i) : own i es vs = own i es' vs' := by
  obtain ⟨-, h1⟩ := (C103_scenarios_partial hP hl h hes vs).1 ⟨_, hr⟩
  obtain ⟨-, h2⟩ := (C103_scenarios_partial hP hl h' hes' vs').1 ⟨_, hr'⟩
  obtain ⟨o, a1, g1, g2⟩ := h1 i hi
  obtain ⟨o', a2, g3, g4⟩ := h2 i hi'
  rw [g1, Option.some.injEq, Prod.mk.injEq] at g3
  obtain ⟨rfl, rfl⟩ := g3
  rw [← hsame] at g4
  exact g2.unique g4

/-- **C103 (runs).** A run of `n` steps with `k` scenarios has values exactly if the class has a method and its calls have: those of each scenario
are, in each step, `before` if the class has it and then `after` if the class has it. -/
theorem C103_run (hP : P.Keyed) {k : Nat} (hk : 0 < k) {a : A} {n : Nat} {now : Nat → Nat → Method → Ctx} (hnow : ∀ t i m, (now t i m).scenario = i) :
    (∀ vs, run C P a k n now = .ok vs ↔ (∃ m, C.has m = true) ∧ ∃ os a' es, Made C k a os a' ∧
      es = schedule ([Method.before, .after].filter C.has) k n now ∧ Runs C P os a' es vs) ∧
    ∀ i < k, ((schedule ([Method.before, .after].filter C.has) k n now).filter fun e => e.ctx.scenario = i) = calls C i n now := by
  have hsched : ∀ ms, ∀ e ∈ schedule ms k n now, e.ctx.scenario < k := by
    intro ms e he
    simp only [schedule, List.mem_flatMap, List.mem_map, List.mem_range] at he
    obtain ⟨t, -, i, hi, m, -, rfl⟩ := he
    simpa [hnow] using hi
  refine ⟨fun vs => ?_, fun i hi => ?_⟩
  · unfold run
    obtain ⟨h1, h2⟩ := C103_phases C
    cases hp : phases C with
    | error e =>
      simp only [reduceCtorEq, false_iff, not_and]
      have he : e = .noPhase := by
        unfold phases at hp
        split at hp <;> first | cases hp; rfl | cases hp
      subst he
      rintro ⟨m, hm⟩
      rw [h1.1 hp m] at hm; cases hm
    | ok ms =>
      have hms := h2 ms hp
      have hany : ∃ m, C.has m = true := by
        by_contra hno
        have := h1.2 fun m => by
          by_contra hm
          exact hno ⟨m, by simpa using hm⟩
        rw [hp] at this; cases this
      rw [← hms]
      simp only [hany, true_and]
      cases hs : setup C k a with
      | none =>
        simp only [reduceCtorEq, false_iff]
        rintro ⟨os, a', es, ho, -⟩
        obtain ⟨w, g1, -⟩ := setup_of ho
        rw [hs] at g1; cases g1
      | some w =>
        simp only
        constructor
        · intro hv
          obtain ⟨os, ho⟩ := setup_made hk hs
          refine ⟨os, w.args, _, ho, rfl, (C103_calls hP hs ho (hsched ms) vs).1 ?_⟩
          cases hx : exec C P (schedule ms k n now) w with
          | error e => simp only [hx] at hv; cases hv
          | ok r =>
            simp only [hx, Except.ok.injEq] at hv
            exact ⟨r.2, by rw [← hv]⟩
        · rintro ⟨os, a', es, ho, rfl, hr⟩
          obtain ⟨w', hx⟩ := (C103_calls hP hs ho (hsched ms) vs).2 hr
          simp only [hx]
  · unfold schedule calls
    rw [List.filter_flatMap]
    congr 1
    funext t
    rw [List.filter_flatMap]
    have : ∀ j, (List.map (fun m => (⟨m, now t j m⟩ : Event)) ([Method.before, .after].filter C.has)).filter (fun e => decide (e.ctx.scenario = i)) =
        if j = i then List.map (fun m => (⟨m, now t i m⟩ : Event)) ([Method.before, .after].filter C.has) else [] := by
      intro j
      by_cases hj : j = i
      · subst hj
        rw [if_pos rfl, List.filter_eq_self]
        intro e he
        obtain ⟨m, -, rfl⟩ := List.mem_map.1 he
        simp [hnow]
      · rw [if_neg hj, List.filter_eq_nil_iff]
        intro e he
        obtain ⟨m, -, rfl⟩ := List.mem_map.1 he
        simpa [hnow] using hj
    simp only [this]
    generalize List.map (fun m => (⟨m, now t i m⟩ : Event)) ([Method.before, .after].filter C.has) = ys
    clear hsched
    induction k with
    | zero => omega
    | succ k ih =>
      rw [List.range_succ, List.flatMap_append]
      rcases Nat.lt_succ_iff_lt_or_eq.1 hi with hlt | rfl
      · rw [ih (by omega) hlt]
        simp [Nat.ne_of_gt hlt]
      · have : (List.range i).flatMap (fun j => if j = i then ys else []) = [] := by
          rw [List.flatMap_eq_nil_iff]
          intro j hj
          rw [if_neg (Nat.ne_of_lt (List.mem_range.1 hj))]
        rw [this]
        simp

/-- **C103 (functions).** The values of a function, in one scenario, are what it returns for its arguments and what is current. -/
theorem C103_function (hP : P.Keyed) (f : A → View → Option (Obj × A)) (a : A) (xs : List Ctx) (vs : List Value) :
    (∃ a', applyAll f P xs none a = .ok (vs, a')) ↔ Applied f P a xs vs :=
  applyAll_iff hP fun i hi => by cases hi

/-- **C103 (functions, partial).** If a function leaves its arguments as they are, each of its values depends on nothing but them and what is current. -/
theorem C103_function_partial (hP : P.Keyed) (f : A → View → Option (Obj × A)) (hf : ∀ a v r a', f a v = some (r, a') → a' = a) (a : A) (xs : List Ctx)
    (vs : List Value) : (∃ a', applyAll f P xs none a = .ok (vs, a')) ↔
      List.Forall₂ (fun x v => ∃ view r, Sees P x view ∧ f a view = some (r, a) ∧ Gives P.returns r v) xs vs := by
  rw [C103_function hP]
  constructor
  · intro h
    induction h with
    | done => exact .nil
    | call h1 h2 h3 _ ih =>
      obtain rfl := hf _ _ _ _ h2
      exact .cons ⟨_, _, h1, h2, h3⟩ ih
  · intro h
    induction h with
    | nil => exact .done _
    | cons h _ ih =>
      obtain ⟨view, r, h1, h2, h3⟩ := h
      exact .call h1 h2 h3 ih

/-- **C103 (keys).** What a call is told is determined by what is declared and current, and a declared key without a value is an error of the run. -/
theorem C103_told (hP : P.Keyed) (x : Ctx) : (∀ v w, Sees P x v → Sees P x w → v = w) ∧
    ((∃ v, Sees P x v) ↔ (∀ p ∈ P.metrics, (x.metric p.2).isSome) ∧ ∀ p ∈ P.indices, (x.index p.2).isSome) := by
  refine ⟨fun v w => Sees.unique, ?_⟩
  constructor
  · rintro ⟨v, hv⟩
    refine ⟨fun p hp => ?_, fun p hp => ?_⟩
    · obtain ⟨q, h1, -⟩ := hv.metrics p.1 p.2 hp
      rw [h1]; rfl
    · obtain ⟨q, h1, -⟩ := hv.indices p.1 p.2 hp
      rw [h1]; rfl
  · rintro ⟨h1, h2⟩
    cases hr : refresh P x ⟨0, 0, [], []⟩ with
    | some j => exact ⟨_, (refresh_some hP ⟨fun k _ => rfl, fun k _ => rfl⟩ hr).1⟩
    | none =>
      exfalso
      unfold refresh at hr
      cases e1 : update x.metric P.metrics [] with
      | none =>
        obtain ⟨k, m, g1, g2⟩ := update_none e1
        have := h1 _ g1
        rw [g2] at this; cases this
      | some ms =>
        simp only [e1] at hr
        cases e2 : update x.index P.indices [] with
        | none =>
          obtain ⟨k, m, g1, g2⟩ := update_none e2
          have := h2 _ g1
          rw [g2] at this; cases this
        | some is => simp only [e2] at hr; cases hr

mutual
/-- Arguments are the same exactly if whole numbers fit. -/
theorem same_iff (round : Int → ℚ) : ∀ j, Same j (toPy round j) ↔ Fits j
  | .null => by simp only [toPy, Fits, iff_true]; exact .null
  | .bool b => by simp only [toPy, Fits, iff_true]; exact .bool b
  | .float q => by simp only [toPy, Fits, iff_true]; exact .float q
  | .str s => by simp only [toPy, Fits, iff_true]; exact .str s
  | .int n => by
    simp only [toPy, Fits]
    by_cases h : -2 ^ 63 ≤ n ∧ n < 2 ^ 63
    · rw [if_pos h]; exact ⟨fun _ => h, fun _ => .int n⟩
    · rw [if_neg h]; exact ⟨fun e => (by cases e), fun e => absurd e h⟩
  | .arr xs => by
    simp only [toPy, Fits]
    rw [← allSame_iff round xs]
    exact ⟨fun h => by cases h; assumption, .arr⟩
  | .obj ks xs => by
    simp only [toPy, Fits]
    rw [← allSame_iff round xs]
    exact ⟨fun h => by cases h; assumption, .obj⟩
/-- See `same_iff`. -/
theorem allSame_iff (round : Int → ℚ) : ∀ js, List.Forall₂ Same js (allToPy round js) ↔ AllFit js
  | [] => by simp [allToPy, AllFit]
  | j :: js => by simp only [allToPy, AllFit, List.forall₂_cons, same_iff round j, allSame_iff round js]
end

mutual
/-- An object says what one document says. -/
theorem same_inj : ∀ {i j : Json} {o : Obj}, Same i o → Same j o → i = j
  | .null, _, _, h, h' => by cases h; cases h'; rfl
  | .bool b, _, _, h, h' => by cases h; cases h'; rfl
  | .float q, _, _, h, h' => by cases h; cases h'; rfl
  | .str s, _, _, h, h' => by cases h; cases h'; rfl
  | .int n, _, _, h, h' => by cases h; cases h'; rfl
  | .arr xs, _, _, h, h' => by
    cases h with
    | arr g => cases h' with
      | arr g' => rw [allSame_inj g g']
  | .obj ks xs, _, _, h, h' => by
    cases h with
    | obj g => cases h' with
      | obj g' => rw [allSame_inj g g']
/-- See `same_inj`. -/
theorem allSame_inj : ∀ {is js : List Json} {os : List Obj}, List.Forall₂ Same is os → List.Forall₂ Same js os → is = js
  | [], _, _, h, h' => by cases h; cases h'; rfl
  | i :: is, _, _, h, h' => by
    cases h with
    | cons g1 g2 => cases h' with
      | cons g3 g4 => rw [same_inj g1 g3, allSame_inj g2 g4]
end

/-- **C103 (arguments, partial).** Arguments reach Python as they are written exactly if their whole numbers fit in 64 bits with sign, and then different
arguments are told apart. Missing: larger whole numbers, which the document can hold up to 64 bits without sign (`Cases.C103_arguments_refuted`). -/
theorem C103_arguments_partial (round : Int → ℚ) (j : Json) : (Same j (toPy round j) ↔ Fits j) ∧
    ∀ i, Fits i → Fits j → toPy round i = toPy round j → i = j := by
  refine ⟨same_iff round j, fun i hi hj he => ?_⟩
  have h1 := (same_iff round i).2 hi
  rw [he] at h1
  exact same_inj h1 ((same_iff round j).2 hj)

end Verif.Python
