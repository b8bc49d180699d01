import Verif.Lemmas.KindsNow

/-!
# What queues, windows and flags remember
-/

namespace Verif.Kinds

open Verif.Params

/-! ## Delays -/

/-- All values that ever were or will be in the queue of a delay. -/
def line (d : Nat) (init : Val) (x : Nat → Val) (t : Nat) : List Val := List.replicate d init ++ (List.range t).map x

theorem line_length (d : Nat) (init : Val) (x : Nat → Val) (t : Nat) : (line d init x t).length = d + t := by
  simp [line]

theorem line_succ (d : Nat) (init : Val) (x : Nat → Val) (t : Nat) : line d init x (t + 1) = line d init x t ++ [x t] := by
  simp [line, List.range_succ]

/-- The value that leaves the queue at step `t`. -/
def delayed (d : Nat) (init : Val) (x : Nat → Val) (t : Nat) : Val := if t < d then init else x (t - d)

theorem line_get (d : Nat) (init : Val) (x : Nat → Val) (t m : Nat) (hm : t < (line d init x m).length) :
    (line d init x m)[t] = delayed d init x t := by
  unfold delayed
  split_ifs with h
  · simp only [line]; rw [List.getElem_append_left (by simpa using h)]; simp
  · simp only [line]
    rw [List.getElem_append_right (by simpa using h)]
    simp

/-- Push, then pop. -/
theorem line_simple (d : Nat) (init : Val) (x : Nat → Val) (t : Nat) :
    (line d init x t).drop t ++ [x t] = delayed d init x t :: (line d init x (t + 1)).drop (t + 1) := by
  have h1 : (line d init x t).drop t ++ [x t] = (line d init x (t + 1)).drop t := by
    rw [line_succ, List.drop_append_of_le_length (by rw [line_length]; omega)]
  have h2 : t < (line d init x (t + 1)).length := by rw [line_length]; omega
  rw [h1, List.drop_eq_getElem_cons h2, line_get]

/-- Pop, then push. -/
theorem line_general (d : Nat) (hd : 0 < d) (init : Val) (x : Nat → Val) (t : Nat) :
    (line d init x t).drop t = delayed d init x t :: (line d init x t).drop (t + 1) ∧
    (line d init x t).drop (t + 1) ++ [x t] = (line d init x (t + 1)).drop (t + 1) := by
  have h2 : t < (line d init x t).length := by rw [line_length]; omega
  constructor
  · rw [List.drop_eq_getElem_cons h2, line_get]
  · rw [line_succ, List.drop_append_of_le_length (by omega)]

theorem delaySetup_eq (d : Nat) (init : Val) (x : Nat → Val) : Temporal.delaySetup d init = (line d init x 0).drop 0 := by
  simp [line, Temporal.delaySetup]

theorem delaySimple_iff {m : List Val} {o : Option Val} {conv : Val → Val} {v : Val} {s : Inner} :
    delaySimple m [o] conv = some (v, s) ↔ ∃ x q, o = some x ∧ m ++ [conv x] = v :: q ∧ s = .queue q := by
  cases o with
  | none => simp [delaySimple]
  | some x =>
    simp only [delaySimple, Temporal.delaySimpleStep]
    cases hm : m ++ [conv x] with
    | nil => simp at hm
    | cons a q =>
      simp only [Temporal.delayBefore, Option.some_inj, Prod.mk.injEq]
      constructor
      · rintro ⟨rfl, rfl⟩; exact ⟨x, q, rfl, hm, rfl⟩
      · rintro ⟨x', q', rfl, h1, rfl⟩
        rw [hm] at h1
        cases h1
        exact ⟨rfl, rfl⟩

theorem delayBefore_iff {m : List Val} {v : Val} {s : Inner} :
    delayBefore m = some (v, s) ↔ ∃ q, m = v :: q ∧ s = .queue q := by
  cases m with
  | nil => simp [delayBefore, Temporal.delayBefore]
  | cons a q =>
    simp only [delayBefore, Temporal.delayBefore, Option.some_inj, Prod.mk.injEq, List.cons.injEq]
    constructor
    · rintro ⟨rfl, rfl⟩; exact ⟨q, ⟨rfl, rfl⟩, rfl⟩
    · rintro ⟨q', ⟨rfl, rfl⟩, rfl⟩; exact ⟨rfl, rfl⟩

/-- The simple form of a delay. -/
theorem delay_simple (n d : Nat) (init : Val) (conv : Val → Val) (o : Nat → Option Val) (value : Nat → Val) :
    (∃ st hl : Nat → Inner, st 0 = .queue (Temporal.delaySetup d init) ∧ ∀ t < n,
      (∃ m, st t = .queue m ∧ delaySimple m [o t] conv = some (value t, hl t)) ∧ st (t + 1) = hl t) ↔
    ∃ x : Nat → Val, (∀ t < n, o t = some (x t)) ∧ ∀ t < n, value t = delayed d init (fun s => conv (x s)) t := by
  constructor
  · rintro ⟨st, hl, h0, hs⟩
    have hx : ∀ t, ∃ x, t < n → o t = some x := by
      intro t
      by_cases ht : t < n
      · obtain ⟨⟨m, -, h2⟩, -⟩ := hs t ht
        obtain ⟨x, -, hx, -⟩ := delaySimple_iff.1 h2
        exact ⟨x, fun _ => hx⟩
      · exact ⟨⟨0, 0⟩, fun h => absurd h ht⟩
    choose x hx using hx
    have inv : ∀ t ≤ n, st t = .queue ((line d init (fun s => conv (x s)) t).drop t) := by
      intro t
      induction t with
      | zero => intro _; rw [h0, delaySetup_eq d init (fun s => conv (x s))]
      | succ t ih =>
        intro ht
        obtain ⟨⟨m, h1, h2⟩, h3⟩ := hs t (by omega)
        rw [ih (by omega)] at h1
        cases h1
        obtain ⟨x', q, h4, h5, h6⟩ := delaySimple_iff.1 h2
        rw [hx t (by omega)] at h4
        cases h4
        rw [line_simple d init (fun s => conv (x s)) t] at h5
        rw [h3, h6, (List.cons.inj h5).2]
    refine ⟨x, hx, fun t ht => ?_⟩
    obtain ⟨⟨m, h1, h2⟩, -⟩ := hs t ht
    rw [inv t (by omega)] at h1
    cases h1
    obtain ⟨x', q, h4, h5, -⟩ := delaySimple_iff.1 h2
    rw [hx t ht] at h4
    cases h4
    rw [line_simple d init (fun s => conv (x s)) t] at h5
    exact (List.cons.inj h5).1.symm
  · rintro ⟨x, hx, hv⟩
    refine ⟨fun t => .queue ((line d init (fun s => conv (x s)) t).drop t),
      fun t => .queue ((line d init (fun s => conv (x s)) (t + 1)).drop (t + 1)), ?_, fun t ht => ⟨⟨_, rfl, ?_⟩, rfl⟩⟩
    · rw [delaySetup_eq d init (fun s => conv (x s))]
    · rw [delaySimple_iff]
      refine ⟨x t, _, hx t ht, ?_, rfl⟩
      rw [hv t ht]
      exact line_simple d init (fun s => conv (x s)) t

/-- The general form of a delay. -/
theorem delay_general (n d : Nat) (init : Val) (conv : Val → Val) (o : Nat → Option Val) (value : Nat → Val) :
    (∃ st hl : Nat → Inner, st 0 = .queue (Temporal.delaySetup d init) ∧ ∀ t < n,
      (∃ m, st t = .queue m ∧ delayBefore m = some (value t, hl t)) ∧
      (∃ m x, hl t = .queue m ∧ o t = some x ∧ st (t + 1) = .queue (m ++ [conv x]))) ↔
    ∃ x : Nat → Val, (∀ t < n, o t = some (x t)) ∧ (0 < n → 0 < d) ∧
      ∀ t < n, value t = delayed d init (fun s => conv (x s)) t := by
  constructor
  · rintro ⟨st, hl, h0, hs⟩
    have hx : ∀ t, ∃ x, t < n → o t = some x := by
      intro t
      by_cases ht : t < n
      · obtain ⟨-, m, x, -, hx, -⟩ := hs t ht
        exact ⟨x, fun _ => hx⟩
      · exact ⟨⟨0, 0⟩, fun h => absurd h ht⟩
    choose x hx using hx
    have hd : 0 < n → 0 < d := by
      intro hn
      obtain ⟨⟨m, h1, h2⟩, -⟩ := hs 0 hn
      rw [h0] at h1
      cases h1
      obtain ⟨q, h3, -⟩ := delayBefore_iff.1 h2
      by_contra h4
      have : d = 0 := by omega
      subst this
      simp [Temporal.delaySetup] at h3
    have inv : ∀ t ≤ n, st t = .queue ((line d init (fun s => conv (x s)) t).drop t) := by
      intro t
      induction t with
      | zero => intro _; rw [h0, delaySetup_eq d init (fun s => conv (x s))]
      | succ t ih =>
        intro ht
        obtain ⟨⟨m, h1, h2⟩, m', x', h3, h4, h5⟩ := hs t (by omega)
        rw [ih (by omega)] at h1
        cases h1
        obtain ⟨q, h6, h7⟩ := delayBefore_iff.1 h2
        obtain ⟨h8, h9⟩ := line_general d (hd (by omega)) init (fun s => conv (x s)) t
        rw [h8] at h6
        rw [h7] at h3
        cases h3
        rw [hx t (by omega)] at h4
        cases h4
        rw [h5, ← (List.cons.inj h6).2, h9]
    refine ⟨x, hx, hd, fun t ht => ?_⟩
    obtain ⟨⟨m, h1, h2⟩, -⟩ := hs t ht
    rw [inv t (by omega)] at h1
    cases h1
    obtain ⟨q, h6, -⟩ := delayBefore_iff.1 h2
    rw [(line_general d (hd (by omega)) init (fun s => conv (x s)) t).1] at h6
    exact (List.cons.inj h6).1.symm
  · rintro ⟨x, hx, hd, hv⟩
    refine ⟨fun t => .queue ((line d init (fun s => conv (x s)) t).drop t),
      fun t => .queue ((line d init (fun s => conv (x s)) t).drop (t + 1)), ?_, fun t ht => ⟨⟨_, rfl, ?_⟩,
        _, x t, rfl, hx t ht, ?_⟩⟩
    · rw [delaySetup_eq d init (fun s => conv (x s))]
    · rw [delayBefore_iff]
      refine ⟨_, ?_, rfl⟩
      rw [hv t ht]
      exact (line_general d (hd (by omega)) init (fun s => conv (x s)) t).1
    · exact congrArg Inner.queue (line_general d (hd (by omega)) init (fun s => conv (x s)) t).2.symm

/-! ## Windows -/

/-- The content of a window at the start of step `t`. -/
def window (w : Nat) (x : Nat → Val) (t : Nat) : List Val := (List.range' (t - w) (Min.min t w)).map x

theorem window_push (w : Nat) (x : Nat → Val) (t : Nat) : rollingPush w (window w x t) (x t) = window w x (t + 1) := by
  unfold rollingPush window
  have h1 : (List.range' (t - w) (Min.min t w)).map x ++ [x t] = (List.range' (t - w) (Min.min t w + 1)).map x := by
    rw [List.range'_concat, List.map_append]
    simp only [List.map_cons, List.map_nil, Nat.one_mul]
    congr 3
    omega
  rw [h1]
  split_ifs with hc
  · simp only [List.length_map, List.length_range'] at hc
    rw [List.range'_succ]
    simp only [List.map_cons, List.tail_cons]
    congr 2 <;> omega
  · simp only [List.length_map, List.length_range'] at hc
    congr 2 <;> omega

/-- Windows, of any value type. -/
theorem rolling_iff (n w : Nat) (conv : Val → Val) (val : List Val → Option Val) (o : Nat → Option Val)
    (value : Nat → Val) :
    (∃ st : Nat → Inner, st 0 = .queue [] ∧ ∀ t < n,
      ∃ m x, st t = .queue m ∧ val m = some (value t) ∧ o t = some x ∧ st (t + 1) = .queue (rollingPush w m (conv x))) ↔
    ∃ x : Nat → Val, (∀ t < n, o t = some (x t)) ∧
      ∀ t < n, val (window w (fun s => conv (x s)) t) = some (value t) := by
  constructor
  · rintro ⟨st, h0, hs⟩
    have hx : ∀ t, ∃ x, t < n → o t = some x := by
      intro t
      by_cases ht : t < n
      · obtain ⟨m, x, -, -, hx, -⟩ := hs t ht
        exact ⟨x, fun _ => hx⟩
      · exact ⟨⟨0, 0⟩, fun h => absurd h ht⟩
    choose x hx using hx
    have inv : ∀ t ≤ n, st t = .queue (window w (fun s => conv (x s)) t) := by
      intro t
      induction t with
      | zero => intro _; rw [h0]; simp [window]
      | succ t ih =>
        intro ht
        obtain ⟨m, x', h1, -, h2, h3⟩ := hs t (by omega)
        rw [ih (by omega)] at h1
        cases h1
        rw [hx t (by omega)] at h2
        cases h2
        rw [h3, window_push w (fun s => conv (x s)) t]
    refine ⟨x, hx, fun t ht => ?_⟩
    obtain ⟨m, x', h1, h2, -⟩ := hs t ht
    rw [inv t (by omega)] at h1
    cases h1
    exact h2
  · rintro ⟨x, hx, hv⟩
    refine ⟨fun t => .queue (window w (fun s => conv (x s)) t), by simp [window], fun t ht =>
      ⟨_, x t, rfl, hv t ht, hx t ht, ?_⟩⟩
    rw [window_push w (fun s => conv (x s)) t]

end Verif.Kinds
