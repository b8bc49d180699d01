import Verif.Props.Python

/-!
# C103: cases

A class that counts its calls and adds a metric, a class that appends to a list among its arguments, and functions. The appending class shows that
scenarios are not independent in general.
-/

namespace Verif.Python.Cases

/-- `def __init__(self, start): self.n = start[0]`; `before` returns the count plus the metric "flow", `after` the count, and both count. -/
def counter : Class ℚ (List ℚ) where
  make a := a.head?.map fun q => (q, a)
  has _ := true
  holds _ _ := true
  call m o a v :=
    match m with
    | .before => (v.metric "flow").map fun q => (.float (o + q), o + 1, a)
    | .after => some (.float o, o + 1, a)

/-- The flow is metric 3 of the network. -/
def P : Common := ⟨[("flow", 3)], [("month", 0)], .float⟩

/-- In step `t` and scenario `i` metric 3 is `10 t + i` before the allocation and unused after it. -/
def now (t i : Nat) (m : Method) : Ctx := ⟨t, i, fun id => if id = 3 then some (10 * t + i + if m = .after then 1 / 2 else 0) else none, fun _ => some t⟩

theorem keyed : P.Keyed := ⟨by decide, by decide⟩

theorem counter_leaves : Leaves counter := by
  refine ⟨fun a o a' h => ?_, fun m o a view r o' a' h => ?_⟩
  · simp only [counter, Option.map_eq_some_iff, Prod.mk.injEq] at h
    obtain ⟨q, -, -, h⟩ := h
    exact h.symm
  · cases m
    · simp only [counter, Option.map_eq_some_iff, Prod.mk.injEq] at h
      obtain ⟨q, -, -, -, h⟩ := h
      exact h.symm
    · simp only [counter, Option.some.injEq, Prod.mk.injEq] at h
      exact h.2.2.symm

/-- Two scenarios and two steps. -/
theorem counter_runs : run counter P [5] 2 2 now =
    .ok [.number 5, .number 6, .number 6, .number 6, .number 17, .number 8, .number 18, .number 8] := by decide +kernel

example := (C103_run (C := counter) keyed (k := 2) (by omega) (a := [5]) (n := 2) (now := now) (fun _ _ _ => rfl)).1 _ |>.1 counter_runs
example := (C103_run (C := counter) keyed (k := 2) (by omega) (a := [5]) (n := 2) (now := now) (fun _ _ _ => rfl)).2 1 (by omega)
example : (C103_phases counter).2 _ rfl = (rfl : [Method.before, .after] = [.before, .after]) := rfl

/-- Two scenarios, each with its own object. -/
def two : World ℚ (List ℚ) := ⟨[⟨5, none⟩, ⟨5, none⟩], [5]⟩
theorem two_setup : setup counter 2 [5] = some two := rfl
theorem two_made : Made counter 2 [5] (fun _ => 5) [5] := ⟨fun _ => [5], rfl, rfl, fun _ _ => rfl⟩
example := (C103_objects (C := counter) (k := 2) (by omega) [5]).2 ⟨_, _, two_made⟩

/-- Scenario 1 is calculated first, then scenario 0. -/
def mixed : List Event := [⟨.before, now 0 1 .before⟩, ⟨.before, now 0 0 .before⟩, ⟨.after, now 0 0 .after⟩, ⟨.after, now 0 1 .after⟩]
/-- Scenario 1 alone. -/
def single : List Event := [⟨.before, now 0 1 .before⟩, ⟨.after, now 0 1 .after⟩]

theorem mixed_in : ∀ e ∈ mixed, e.ctx.scenario < 2 := by decide
theorem single_in : ∀ e ∈ single, e.ctx.scenario < 2 := by decide

/-- What calls return. -/
def returned {O A : Type} (r : Except Err (List Value × World O A)) : Option (List Value) := r.toOption.map (·.1)

theorem ran {O A : Type} {r : Except Err (List Value × World O A)} {vs : List Value} (h : returned r = some vs) : ∃ w, r = .ok (vs, w) := by
  cases r with
  | error e => cases h
  | ok p => exact ⟨p.2, by simp only [returned, Except.toOption, Option.map_some, Option.some.injEq] at h; rw [← h]⟩

theorem mixed_runs : returned (exec counter P mixed two) = some [.number 6, .number 5, .number 6, .number 6] := by decide +kernel
theorem single_runs : returned (exec counter P single two) = some [.number 6, .number 6] := by decide +kernel

example := (C103_calls keyed two_setup two_made mixed_in _).1 (ran mixed_runs)
example := (C103_scenarios_partial keyed counter_leaves two_setup mixed_in _).1 (ran mixed_runs)
example : own 1 mixed [Value.number 6, .number 5, .number 6, .number 6] = own 1 single [Value.number 6, .number 6] := by
  obtain ⟨w, h⟩ := ran mixed_runs
  obtain ⟨w', h'⟩ := ran single_runs
  exact C103_order_partial keyed counter_leaves two_setup two_setup mixed_in single_in h h' (i := 1) (by omega) (by omega) rfl

/-- `def __init__(self, seen): self.seen = seen`; `before` appends to the list and returns its length. -/
def appender : Class Unit (List ℚ) where
  make a := some ((), a)
  has m := m = .before
  holds _ m := m = .before
  call _ _ a v := some (.float (a.length + 1), (), a ++ [(v.step : ℚ)])

/-- Nothing declared. -/
def bare : Common := ⟨[], [], .float⟩

/-- **C103 (scenarios, refuted).** In general scenarios are not independent: arguments are converted once and shared by the objects of all scenarios, so
that the values of scenario 1 depend on whether scenario 0 is calculated, and on the order, although its own calls are the same. -/
theorem C103_shared_refuted : ∃ (C : Class Unit (List ℚ)) (P : Common) (a : List ℚ) (w : World Unit (List ℚ)) (es es' : List Event) (vs vs' : List Value),
    P.Keyed ∧ setup C 2 a = some w ∧ (∃ w', exec C P es w = .ok (vs, w')) ∧ (∃ w', exec C P es' w = .ok (vs', w')) ∧
    (es.filter fun e => e.ctx.scenario = 1) = (es'.filter fun e => e.ctx.scenario = 1) ∧ own 1 es vs ≠ own 1 es' vs' :=
  ⟨appender, bare, [], ⟨[⟨(), none⟩, ⟨(), none⟩], []⟩, schedule [.before] 2 1 now, [⟨.before, now 0 1 .before⟩], [.number 1, .number 2], [.number 1],
    ⟨by decide, by decide⟩, rfl, ran (by decide +kernel), ran (by decide +kernel), rfl, by decide +kernel⟩

/-- **C103 (arguments, refuted).** A whole number of a document from 2^63 on, which 64 bits without sign can hold, reaches Python as a float. -/
theorem C103_arguments_refuted : ∃ n : Int, 0 ≤ n ∧ n < 2 ^ 64 ∧ ∀ round, toPy round (.int n) = .float (round n) ∧ ¬ Same (.int n) (toPy round (.int n)) := by
  refine ⟨2 ^ 63, by decide, by decide, fun round => ?_⟩
  have : toPy round (.int (2 ^ 63)) = .float (round (2 ^ 63)) := by
    simp only [toPy]
    rw [if_neg (by decide)]
  refine ⟨this, ?_⟩
  rw [this]
  intro h
  cases h

/-- Nested arguments. -/
def nested : Json := .obj ["table", "names"] [.arr [.int (-3), .float (1 / 2), .null], .arr [.str "a", .bool true]]
example : Same nested (toPy (fun n => n) nested) := (C103_arguments_partial _ nested).1.2 (by simp [nested, Fits, AllFit])
example (round : Int → ℚ) : toPy round nested = .dict ["table", "names"] [.list [.int (-3), .float (1 / 2), .none], .list [.str "a", .bool true]] := by
  simp [nested, toPy, allToPy]

/-- A function of a metric and of its arguments. -/
def double (a : List ℚ) (v : View) : Option (Obj × List ℚ) := (v.metric "flow").map fun q => (.float (2 * q + a.sum), a)

theorem double_leaves : ∀ a v r a', double a v = some (r, a') → a' = a := by
  intro a v r a' h
  simp only [double, Option.map_eq_some_iff, Prod.mk.injEq] at h
  obtain ⟨q, -, -, h⟩ := h
  exact h.symm

theorem double_runs : ∃ a', applyAll double P [now 0 0 .before, now 1 0 .before] none [1, 1] = .ok ([.number 2, .number 22], a') :=
  ⟨[1, 1], by decide +kernel⟩

example := (C103_function keyed double [1, 1] _ _).1 double_runs
example := (C103_function_partial keyed double double_leaves [1, 1] _ _).1 double_runs

/-- What a call is told; a key that is not declared is an error in Python. -/
example : ∃ v, Sees P (now 2 1 .before) v ∧ v.metric "flow" = some 21 ∧ v.index "month" = some 2 ∧ v.metric "volume" = none := by
  obtain ⟨v, hv⟩ := (C103_told keyed (now 2 1 .before)).2.2 ⟨by decide, by decide⟩
  obtain ⟨q, h1, h2⟩ := hv.metrics "flow" 3 (by decide)
  obtain ⟨n, h3, h4⟩ := hv.indices "month" 0 (by decide)
  refine ⟨v, hv, ?_, ?_, hv.noMetric _ (by decide)⟩
  · rw [h2, ← h1]; decide +kernel
  · rw [h4, ← h3]; rfl

/-- A metric without a value stops the run. -/
example : ¬ ∃ v, Sees ⟨[("flow", 4)], [], .float⟩ (now 0 0 .before) v := by
  rw [(C103_told ⟨by decide, by decide⟩ _).2]
  intro h
  have := h.1 ("flow", 4) (by decide)
  revert this
  decide

/-- Returned dictionaries: floats are values, whole numbers and truth values are indices, anything else is an error; a float is no index. -/
example : extract .dict (.dict ["a", "b", "c"] [.float (1 / 2), .int 7, .bool true]) = some (.multi [("a", 1 / 2)] [("b", 7), ("c", 1)]) := rfl
example : extract .dict (.dict ["a"] [.str "x"]) = none := rfl
example : extract .int (.float 2) = none := rfl
example : extract .int (.int (-1)) = none := rfl
example : extract .float (.int 3) = some (.number 3) := rfl
example := (extract_iff .dict (.dict ["a", "b"] [.float (1 / 2), .int 7]) (.multi [("a", 1 / 2)] [("b", 7)])).1 rfl

/-- A class without methods is refused. -/
example : run { counter with has := fun _ => false } P [5] 2 2 now = .error .noPhase := rfl

end Verif.Python.Cases
