import Verif.Lemmas.KindsLocal

/-!
# The equations of one parameter say that it has the value its type defines
-/

namespace Verif.Kinds

open Verif.Params

variable {W : Type} {bs : List Builder} {h : Record W} {e : Env}
variable {ps : List (Param W)} {nodes solve : Nat → W → List Val → Option W} {name : Name} {k : Kind W} {n : Nat}

/-- The forms of parameters without memory. -/
theorem plain_forms {form : Form} (hk : k.Plain) (ht : Takes bs (k.builder name) form) :
    form = .const ∨ form = .simple ∨ ∃ b a, form = .general b a ∧ a ≠ .hook ∧ (b = true → k.phase ≠ .after) ∧
      (a = .value → k.phase ≠ .before) := by
  obtain ⟨shapes, -, rfl⟩ := ht
  have general_in : ∀ p : Phase, ∃ b a, formOf (generalIn p) shapes = .general b a ∧ a ≠ .hook ∧ (b = true → p ≠ .after) ∧
      (a = .value → p ≠ .before) := by
    intro p
    cases p
    · exact ⟨_, _, rfl, by simp, by simp, by simp⟩
    · exact ⟨_, _, rfl, by simp, by simp, by simp⟩
    · exact ⟨_, _, rfl, by simp, by simp, by simp⟩
  cases k with
  | constant => exact .inl rfl
  | scheduled => exact .inr (.inl rfl)
  | division _ _ p => exact .inr (.inr (general_in p))
  | deficit => exact .inr (.inr ⟨_, _, rfl, by simp, by simp, by simp [Kind.phase]⟩)
  | difference =>
    simp only [Kind.builder, Kind.style, formOf]
    split_ifs
    · exact .inr (.inl rfl)
    · exact .inr (.inr ⟨_, _, rfl, by simp, by simp [Kind.phase], by simp⟩)
  | volumeBetween =>
    simp only [Kind.builder, Kind.style, formOf]
    split_ifs
    · exact .inr (.inl rfl)
    · exact .inr (.inr ⟨_, _, rfl, by simp, by simp [Kind.phase], by simp⟩)
  | aggregated _ _ p =>
    by_cases hp : p = .before
    · subst hp
      simp only [Kind.builder, Kind.style, formOf, if_true]
      split_ifs
      · exact .inl rfl
      · exact .inr (.inl rfl)
      · exact .inr (.inr ⟨_, _, rfl, by simp, by simp [Kind.phase], by simp⟩)
    · simp only [Kind.builder, Kind.style, if_neg hp]
      exact .inr (.inr (general_in p))
  | aggregatedIndex _ _ p =>
    by_cases hp : p = .before
    · subst hp
      simp only [Kind.builder, Kind.style, formOf, if_true]
      split_ifs
      · exact .inl rfl
      · exact .inr (.inl rfl)
      · exact .inr (.inr ⟨_, _, rfl, by simp, by simp [Kind.phase], by simp⟩)
    · simp only [Kind.builder, Kind.style, if_neg hp]
      exact .inr (.inr (general_in p))
  | offset => exact hk.elim
  | delay => exact hk.elim
  | delayIndex => exact hk.elim
  | rolling => exact hk.elim
  | rollingIndex => exact hk.elim
  | asymmetric => exact hk.elim
  | threshold => exact hk.elim
  | multiThreshold => exact hk.elim
  | _ => exact .inr (.inr ⟨_, _, rfl, by simp, by simp [Kind.phase], by simp⟩)

theorem holds_plain (hk : k.Plain) (form : Form) :
    Holds bs e h n name form k ↔
      match form with
      | .const => Now bs e h .const 0 (h.value 0 .const name) k
      | .simple => ∀ t < n, Now bs e h .simple t (h.value t .simple name) k
      | .general before after =>
        (before = true → ∀ t < n, Now bs e h .before t (h.value t .before name) k) ∧
        (after = .value → ∀ t < n, Now bs e h .after t (h.value t .after name) k) := by
  cases k <;> first | exact hk.elim | rfl

theorem map_pair {o : Option Val} {s s' : Inner} {v : Val} : o.map (·, s) = some (v, s') ↔ o = some v ∧ s' = s := by
  cases o
  · simp
  · simp only [Option.map_some, Option.some_inj, Prod.mk.injEq]
    exact ⟨fun h => ⟨h.1, h.2.symm⟩, fun h => ⟨h.1, h.2.symm⟩⟩

theorem plain_local (hn : (bs.map Builder.name).Nodup) (hk : k.Plain) (hp : kindOf ps name = some k) {form : Form}
    (ht : Takes bs (k.builder name) form) :
    Holds bs e h n name form k ↔ ∃ st hl, Equations bs (calcs e ps nodes solve) h n (k.builder name) form st hl := by
  rw [holds_plain hk]
  rcases plain_forms hk ht with rfl | rfl | ⟨b, a, rfl, hah, hb, ha⟩
  · obtain ⟨xs, h1, h2⟩ := const_const (h := h) (e := e) (nodes := nodes) (solve := solve) hn hp ht
    simp only [calc_plain hk, map_pair, eval_iff hk h1] at h2
    constructor
    · intro hv
      refine ⟨fun _ => k.setup, fun _ => k.setup, (h2 _ _).2 ⟨hv, rfl⟩, fun t _ => ⟨?_, ?_⟩⟩
      · exact (before_none (.inl rfl) _ _ _).2 rfl
      · exact (after_none (.inl rfl) _ _ _).2 rfl
    · rintro ⟨st, hl, h3, -⟩
      exact ((h2 _ _).1 h3).1
  · have h2 := fun t => before_simple (h := h) (e := e) (nodes := nodes) (solve := solve) hn hp ht t
    choose xs h1 h2 using h2
    simp only [calc_plain hk, map_pair, fun t v => eval_iff (e := e) hk (h1 t) v] at h2
    constructor
    · intro hv
      refine ⟨fun _ => k.setup, fun _ => k.setup, (const_other hp (by simp) _ _).2 rfl, fun t hlt => ⟨?_, ?_⟩⟩
      · exact (h2 _ _ _).2 ⟨hv t hlt, rfl⟩
      · exact (after_none (.inr (.inl rfl)) _ _ _).2 rfl
    · rintro ⟨st, hl, -, h3⟩ t hlt
      exact ((h2 _ _ _).1 (h3 t hlt).1).1
  · have hbefore : ∀ t st hl, BeforeHolds bs (calcs e ps nodes solve) (withInner h st hl) t (k.builder name) (.general b a) ↔
        (b = true → Now bs e h .before t (h.value t .before name) k) ∧ hl t = st t := by
      intro t st hl
      cases b
      · simp only [before_none (.inr ⟨a, rfl⟩), Bool.false_eq_true, false_imp_iff, true_and]
      · obtain ⟨xs, h1, h2⟩ := before_general (h := h) (e := e) (nodes := nodes) (solve := solve) hn hp ht (hb rfl) t
        simp only [h2, calc_plain hk, map_pair, eval_iff hk h1, true_imp_iff]
    have hafter : ∀ t st hl, AfterHolds bs (calcs e ps nodes solve) (withInner h st hl) t (k.builder name) (.general b a) ↔
        (a = .value → Now bs e h .after t (h.value t .after name) k) ∧ st (t + 1) = hl t := by
      intro t st hl
      cases a with
      | none => simp only [after_none (.inr (.inr ⟨b, rfl⟩)), reduceCtorEq, false_imp_iff, true_and]
      | hook => exact absurd rfl hah
      | value =>
        obtain ⟨xs, h1, h2⟩ := after_value (h := h) (e := e) (nodes := nodes) (solve := solve) hn hp ht (ha rfl) t
        simp only [h2, calc_plain hk, map_pair, eval_iff hk h1, true_imp_iff]
    constructor
    · rintro ⟨h1, h2⟩
      refine ⟨fun _ => k.setup, fun _ => k.setup, (const_other hp (by simp) _ _).2 rfl, fun t hlt => ⟨?_, ?_⟩⟩
      · exact (hbefore _ _ _).2 ⟨fun hb => h1 hb t hlt, rfl⟩
      · exact (hafter _ _ _).2 ⟨fun ha => h2 ha t hlt, rfl⟩
    · rintro ⟨st, hl, -, h3⟩
      exact ⟨fun hb t hlt => ((hbefore _ _ _).1 (h3 t hlt).1).1 hb, fun ha t hlt => ((hafter _ _ _).1 (h3 t hlt).2).1 ha⟩

/-! ## Parameters with a memory -/

/-- The forms of delays and windows. -/
theorem hook_forms {form : Form} (hs : k.style = .simpleOr .hook) (ht : Takes bs (k.builder name) form) :
    form = .simple ∨ form = .general true .hook := by
  obtain ⟨shapes, -, rfl⟩ := ht
  have : (k.builder name).style = .simpleOr .hook := hs
  rw [this, formOf]
  split_ifs
  · exact .inl rfl
  · exact .inr rfl

theorem one_form {form : Form} (hs : k.style = .general true .none) (ht : Takes bs (k.builder name) form) :
    form = .general true .none := by
  obtain ⟨shapes, -, rfl⟩ := ht
  have : (k.builder name).style = .general true .none := hs
  rw [this, formOf]

/-- The metric of a delay or a window shows the same at the end of a step, in both forms. -/
theorem hook_results (hn : (bs.map Builder.name).Nodup) {s : Source W} (hs : k.style = .simpleOr .hook)
    (hp : k.phase = .after) (hsrc : k.sources = [s]) (ht : Takes bs (k.builder name) .simple) {t : Nat}
    {xs : List (Option Val)} (h1 : List.Forall₂ (Result bs h .simple t k.phase) k.sources xs) :
    ∃ o, xs = [o] ∧ Result bs h .after t .after s o := by
  have hsrc' := h1
  rw [hsrc] at hsrc'
  obtain ⟨o, rfl, h2⟩ := one hsrc'
  refine ⟨o, rfl, fun v => ?_⟩
  rw [h2 v, shows_simple (h := h) hn ht ⟨_, hs⟩ (by rw [hsrc]; exact List.mem_singleton.2 rfl) t .after v, hp]

theorem delayed_iff {value x : Nat → Val} {d : Nat} {init : Val} {as : Val → Val} :
    (∀ t < n, value t = delayed d init (fun s => as (x s)) t) ↔
      ∀ t < n, (t < d → value t = init) ∧ (d ≤ t → value t = as (x (t - d))) := by
  refine forall₂_congr fun t _ => ?_
  unfold delayed
  by_cases hd : t < d
  · rw [if_pos hd]
    exact ⟨fun h => ⟨fun _ => h, fun h' => by omega⟩, fun h => h.1 hd⟩
  · rw [if_neg hd]
    exact ⟨fun h => ⟨fun h' => absurd h' hd, fun _ => h⟩, fun h => h.2 (by omega)⟩

/-- Delays of both value types. -/
theorem delay_local (hn : (bs.map Builder.name).Nodup) (hp : kindOf ps name = some k) {form : Form}
    (ht : Takes bs (k.builder name) form) {s : Source W} {d : Nat} {init : Val} {conv : Val → Val}
    (hs : k.style = .simpleOr .hook) (hph : k.phase = .after) (hsrc : k.sources = [s])
    (hset : k.setup = .queue (Temporal.delaySetup d init))
    (hsimple : ∀ t m xs, k.calc e .simple t (.queue m) xs = delaySimple m xs conv)
    (hbefore : ∀ t m xs, k.calc e .before t (.queue m) xs = delayBefore m)
    (hno : ∀ stage t i xs, (∀ m, i ≠ .queue m) → k.calc e stage t i xs = none)
    (hrem : ∀ i xs i', k.remember i xs = some i' ↔ ∃ m x, i = .queue m ∧ xs = [some x] ∧ i' = .queue (m ++ [conv x])) :
    Delayed bs h n (form = .simple) (early h name form) s d init conv ↔
      ∃ st hl, Equations bs (calcs e ps nodes solve) h n (k.builder name) form st hl := by
  have hqueue : ∀ stage t i xs v i', k.calc e stage t i xs = some (v, i') ↔
      ∃ m, i = .queue m ∧ k.calc e stage t (.queue m) xs = some (v, i') := by
    intro stage t i xs v i'
    constructor
    · intro hc
      by_cases hq : ∃ m, i = .queue m
      · obtain ⟨m, rfl⟩ := hq
        exact ⟨m, rfl, hc⟩
      · rw [hno stage t i xs fun m hm => hq ⟨m, hm⟩] at hc
        cases hc
    · rintro ⟨m, rfl, hc⟩; exact hc
  rcases hook_forms hs ht with rfl | rfl
  · have h2 := fun t => before_simple (h := h) (e := e) (nodes := nodes) (solve := solve) hn hp ht t
    choose xs h1 h2 using h2
    have h3 := fun t => hook_results hn hs hph hsrc ht (h1 t)
    choose o h3 h4 using h3
    have key := delay_simple n d init conv o (fun t => h.value t .simple name)
    constructor
    · rintro ⟨x, h5, -, h6⟩
      obtain ⟨st, hl, h7, h8⟩ := key.2 ⟨x, fun t ht => (h4 t _).2 (h5 t ht), delayed_iff.2 h6⟩
      refine ⟨st, hl, (const_other hp (by simp) _ _).2 (h7.trans hset.symm), fun t hlt => ⟨?_, ?_⟩⟩
      · rw [h2, hqueue]
        obtain ⟨m, h9, h10⟩ := (h8 t hlt).1
        exact ⟨m, h9, by rw [hsimple, h3]; exact h10⟩
      · exact (after_none (.inr (.inl rfl)) _ _ _).2 (h8 t hlt).2
    · rintro ⟨st, hl, h5, h6⟩
      obtain ⟨x, h7, h8⟩ := key.1 ⟨st, hl, ((const_other hp (by simp) _ _).1 h5).trans hset, fun t hlt => by
        obtain ⟨h9, h10⟩ := h6 t hlt
        rw [h2, hqueue] at h9
        obtain ⟨m, h11, h12⟩ := h9
        rw [hsimple, h3] at h12
        exact ⟨⟨m, h11, h12⟩, (after_none (.inr (.inl rfl)) _ _ _).1 h10⟩⟩
      exact ⟨x, fun t ht => (h4 t _).1 (h7 t ht), fun h => absurd rfl h, delayed_iff.1 h8⟩
  · have h2 := fun t => after_hook (h := h) (e := e) (nodes := nodes) (solve := solve) hn hp ht (by rw [hph]; simp) t
    choose xs h1 h2 using h2
    have h3 : ∀ t, ∃ o, xs t = [o] ∧ Result bs h .after t .after s o := by
      intro t
      have := h1 t
      rw [hsrc, hph] at this
      exact one this
    choose o h3 h4 using h3
    have hb := fun t st hl => before_memory (bs := bs) (h := h) (e := e) (ps := ps) (nodes := nodes) (solve := solve)
      (name := name) (k := k) (a := .hook) hp hph t (fun i xs ys => by
        by_cases hq : ∃ m, i = .queue m
        · obtain ⟨m, rfl⟩ := hq
          rw [hbefore, hbefore]
        · rw [hno _ _ i xs fun m hm => hq ⟨m, hm⟩, hno _ _ i ys fun m hm => hq ⟨m, hm⟩]) st hl
    have key := delay_general n d init conv o (fun t => h.value t .before name)
    constructor
    · rintro ⟨x, h5, hd, h6⟩
      obtain ⟨st, hl, h7, h8⟩ := key.2 ⟨x, fun t ht => (h4 t _).2 (h5 t ht), hd (by simp), delayed_iff.2 h6⟩
      refine ⟨st, hl, (const_other hp (by simp) _ _).2 (h7.trans hset.symm), fun t hlt => ⟨?_, ?_⟩⟩
      · rw [hb, hqueue]
        obtain ⟨m, h9, h10⟩ := (h8 t hlt).1
        exact ⟨m, h9, by rw [hbefore]; exact h10⟩
      · obtain ⟨m, x, h9, h10, h11⟩ := (h8 t hlt).2
        rw [h2, hrem, h3]
        exact ⟨m, x, h9, by rw [h10], h11⟩
    · rintro ⟨st, hl, h5, h6⟩
      obtain ⟨x, h7, hd, h8⟩ := key.1 ⟨st, hl, ((const_other hp (by simp) _ _).1 h5).trans hset, fun t hlt => by
        obtain ⟨h9, h10⟩ := h6 t hlt
        rw [hb, hqueue] at h9
        obtain ⟨m, h11, h12⟩ := h9
        rw [hbefore] at h12
        rw [h2, hrem, h3] at h10
        obtain ⟨m', x, h13, h14, h15⟩ := h10
        exact ⟨⟨m, h11, h12⟩, m', x, h13, (List.cons.inj h14).1, h15⟩⟩
      exact ⟨x, fun t ht => (h4 t _).1 (h7 t ht), fun _ => hd, delayed_iff.1 h8⟩

/-- Windows of both value types. -/
theorem rolling_local (hn : (bs.map Builder.name).Nodup) (hp : kindOf ps name = some k) {form : Form}
    (ht : Takes bs (k.builder name) form) {s : Source W} {w least : Nat} {val : List Val → Option Val} {conv : Val → Val}
    {Initial : Val → Prop} {Agg : List Val → Val → Prop}
    (hs : k.style = .simpleOr .hook) (hph : k.phase = .after) (hsrc : k.sources = [s]) (hset : k.setup = .queue [])
    (hsimple : ∀ t i xs v i', k.calc e .simple t i xs = some (v, i') ↔
      ∃ m x, i = .queue m ∧ val m = some v ∧ xs = [some x] ∧ i' = .queue (rollingPush w m (conv x)))
    (hbefore : ∀ t i xs v i', k.calc e .before t i xs = some (v, i') ↔ ∃ m, i = .queue m ∧ val m = some v ∧ i' = i)
    (hrem : ∀ i xs i', k.remember i xs = some i' ↔
      ∃ m x, i = .queue m ∧ xs = [some x] ∧ i' = .queue (rollingPush w m (conv x)))
    (hval : ∀ (x : Nat → Val) t v, val (window w (fun s => conv (x s)) t) = some v ↔
      (Min.min t w < least → Initial v) ∧ (least ≤ Min.min t w → Agg ((List.range' (t - w) (Min.min t w)).map x) v)) :
    Rolled bs h n (early h name form) s w least Initial Agg ↔
      ∃ st hl, Equations bs (calcs e ps nodes solve) h n (k.builder name) form st hl := by
  rcases hook_forms hs ht with rfl | rfl
  · have h2 := fun t => before_simple (h := h) (e := e) (nodes := nodes) (solve := solve) hn hp ht t
    choose xs h1 h2 using h2
    have h3 := fun t => hook_results hn hs hph hsrc ht (h1 t)
    choose o h3 h4 using h3
    have key := rolling_iff n w conv val o (fun t => h.value t .simple name)
    constructor
    · rintro ⟨x, h5, h6⟩
      obtain ⟨st, h7, h8⟩ := key.2 ⟨x, fun t ht => (h4 t _).2 (h5 t ht), fun t ht => (hval x t _).2 (h6 t ht)⟩
      refine ⟨st, fun t => st (t + 1), (const_other hp (by simp) _ _).2 (h7.trans hset.symm), fun t hlt => ⟨?_, ?_⟩⟩
      · rw [h2, hsimple]
        obtain ⟨m, x, h9, h10, h11, h12⟩ := h8 t hlt
        exact ⟨m, x, h9, h10, by rw [h3, h11], h12⟩
      · exact (after_none (.inr (.inl rfl)) _ _ _).2 rfl
    · rintro ⟨st, hl, h5, h6⟩
      obtain ⟨x, h7, h8⟩ := key.1 ⟨st, ((const_other hp (by simp) _ _).1 h5).trans hset, fun t hlt => by
        obtain ⟨h9, h10⟩ := h6 t hlt
        rw [h2, hsimple] at h9
        obtain ⟨m, x, h11, h12, h13, h14⟩ := h9
        rw [h3] at h13
        exact ⟨m, x, h11, h12, (List.cons.inj h13).1, ((after_none (.inr (.inl rfl)) _ _ _).1 h10).trans h14⟩⟩
      exact ⟨x, fun t ht => (h4 t _).1 (h7 t ht), fun t ht => (hval x t _).1 (h8 t ht)⟩
  · have h2 := fun t => after_hook (h := h) (e := e) (nodes := nodes) (solve := solve) hn hp ht (by rw [hph]; simp) t
    choose xs h1 h2 using h2
    have h3 : ∀ t, ∃ o, xs t = [o] ∧ Result bs h .after t .after s o := by
      intro t
      have := h1 t
      rw [hsrc, hph] at this
      exact one this
    choose o h3 h4 using h3
    have hb := fun t st hl => before_memory (bs := bs) (h := h) (e := e) (ps := ps) (nodes := nodes) (solve := solve)
      (name := name) (k := k) (a := .hook) hp hph t (fun i xs ys => by
        refine Option.ext fun p => ?_
        obtain ⟨v, i'⟩ := p
        rw [hbefore, hbefore]) st hl
    have key := rolling_iff n w conv val o (fun t => h.value t .before name)
    constructor
    · rintro ⟨x, h5, h6⟩
      obtain ⟨st, h7, h8⟩ := key.2 ⟨x, fun t ht => (h4 t _).2 (h5 t ht), fun t ht => (hval x t _).2 (h6 t ht)⟩
      refine ⟨st, st, (const_other hp (by simp) _ _).2 (h7.trans hset.symm), fun t hlt => ?_⟩
      obtain ⟨m, x, h9, h10, h11, h12⟩ := h8 t hlt
      constructor
      · rw [hb, hbefore]
        exact ⟨m, h9, h10, rfl⟩
      · rw [h2, hrem, h3]
        exact ⟨m, x, h9, by rw [h11], h12⟩
    · rintro ⟨st, hl, h5, h6⟩
      obtain ⟨x, h7, h8⟩ := key.1 ⟨st, ((const_other hp (by simp) _ _).1 h5).trans hset, fun t hlt => by
        obtain ⟨h9, h10⟩ := h6 t hlt
        rw [hb, hbefore] at h9
        rw [h2, hrem, h3] at h10
        obtain ⟨m, h11, h12, h13⟩ := h9
        obtain ⟨m', x, h14, h15, h16⟩ := h10
        rw [h13, h11] at h14
        cases h14
        exact ⟨m, x, h11, h12, (List.cons.inj h15).1, h16⟩⟩
      exact ⟨x, fun t ht => (h4 t _).1 (h7 t ht), fun t ht => (hval x t _).1 (h8 t ht)⟩

/-- Parameters that are calculated once in a step before the solver. -/
theorem machine_local (hn : (bs.map Builder.name).Nodup) (hp : kindOf ps name = some k) {form : Form}
    (ht : Takes bs (k.builder name) form) (hs : k.style = .general true .none) (hph : k.phase = .before)
    (P : Prop)
    (hP : ∀ xs : Nat → List (Option Val), (∀ t, List.Forall₂ (Result bs h .before t .before) k.sources (xs t)) →
      ((∃ st hl : Nat → Inner, st 0 = k.setup ∧ ∀ t < n,
        k.calc e .before t (st t) (xs t) = some (h.value t .before name, hl t) ∧ st (t + 1) = hl t) ↔ P)) :
    P ↔ ∃ st hl, Equations bs (calcs e ps nodes solve) h n (k.builder name) form st hl := by
  obtain rfl := one_form hs ht
  have h2 := fun t => before_general (h := h) (e := e) (nodes := nodes) (solve := solve) hn hp ht (by rw [hph]; simp) t
  choose xs h1 h2 using h2
  rw [hph] at h1
  rw [← hP xs h1]
  refine exists_congr fun st => exists_congr fun hl => ?_
  unfold Equations
  rw [const_other hp (by simp)]
  simp only [h2, after_none (.inr (.inr ⟨true, rfl⟩))]

theorem collect_window {val : Val → Prop} {P : Prop} {a b : Nat} (o : Option Val) (v : Val)
    (h1 : a < b → (o = some v ↔ val v)) (h2 : b ≤ a → (o = some v ↔ P)) :
    o = some v ↔ (a < b → val v) ∧ (b ≤ a → P) := by
  by_cases hc : a < b
  · rw [h1 hc]; exact ⟨fun h => ⟨fun _ => h, fun h' => by omega⟩, fun h => h.1 hc⟩
  · rw [h2 (by omega)]; exact ⟨fun h => ⟨fun h' => absurd h' hc, fun _ => h⟩, fun h => h.2 (by omega)⟩

theorem window_length (w : Nat) (x : Nat → Val) (t : Nat) : (window w x t).length = Min.min t w := by simp [window]

/-- Every parameter. -/
theorem local_iff (hn : (bs.map Builder.name).Nodup) (hp : kindOf ps name = some k) {form : Form}
    (ht : Takes bs (k.builder name) form) :
    Holds bs e h n name form k ↔ ∃ st hl, Equations bs (calcs e ps nodes solve) h n (k.builder name) form st hl := by
  cases k with
  | offset s o =>
    obtain rfl := one_form rfl ht
    refine machine_local hn hp ht rfl rfl _ fun xs hxs => ?_
    simp only [Holds, Now]
    constructor
    · rintro ⟨st, hl, h0, h1⟩
      refine ⟨fun _ t hlt => ?_, fun h => by cases h⟩
      have h2 := (h1 0 (by omega)).1
      rw [h0] at h2
      cases h2
    · rintro ⟨h1, -⟩
      refine ⟨fun _ => .nothing, fun _ => .nothing, rfl, fun t hlt => (h1 trivial t hlt).elim⟩
  | delay s d init =>
    refine delay_local (k := .delay s d init) (init := ofF init) (conv := asF) hn hp ht rfl rfl rfl rfl
      (fun _ _ _ => by simp [Kind.calc]) (fun _ _ _ => by simp [Kind.calc]) (fun stage t i xs hi => ?_) (fun i xs i' => ?_)
    · cases i <;> first | rfl | exact absurd rfl (hi _)
    · constructor
      · intro hc
        unfold Kind.remember at hc
        split at hc <;> simp_all [Temporal.delayAfter]
      · rintro ⟨m, x, rfl, rfl, rfl⟩; rfl
  | delayIndex s d init =>
    refine delay_local (k := .delayIndex s d init) (init := ofU init) (conv := asU) hn hp ht rfl rfl rfl rfl
      (fun _ _ _ => by simp [Kind.calc]) (fun _ _ _ => by simp [Kind.calc]) (fun stage t i xs hi => ?_) (fun i xs i' => ?_)
    · cases i <;> first | rfl | exact absurd rfl (hi _)
    · constructor
      · intro hc
        unfold Kind.remember at hc
        split at hc <;> simp_all [Temporal.delayAfter]
      · rintro ⟨m, x, rfl, rfl, rfl⟩; rfl
  | rolling s w init least f =>
    refine rolling_local (e := e) (h := h) (n := n) (nodes := nodes) (solve := solve) (k := .rolling s w init least f)
      (s := s) (w := w) (least := least) (Initial := fun v => Number v init)
      (Agg := fun vs v => ∃ q, AggIs e.fmax f (vs.map Val.num) q ∧ Number v q)
      (conv := asF) (val := rollingValue e init least f) hn hp ht rfl rfl rfl rfl (fun t i xs v i' => ?_)
      (fun t i xs v i' => ?_) (fun i xs i' => ?_) (fun x t v => ?_)
    · cases i with
      | queue m =>
        constructor
        · intro hc
          simp only [Kind.calc, if_true] at hc
          cases hv : rollingValue e init least f m with
          | none => rw [hv] at hc; cases hc
          | some u =>
            rw [hv] at hc
            rcases xs with _ | ⟨_ | x, _ | ⟨y, ys⟩⟩ <;> simp only [reduceCtorEq, Option.some_inj, Prod.mk.injEq] at hc
            obtain ⟨rfl, rfl⟩ := hc
            exact ⟨m, x, rfl, hv, rfl, rfl⟩
        · rintro ⟨m', x, h1, h2, rfl, rfl⟩
          obtain rfl := Inner.queue.inj h1
          simp [Kind.calc, h2]
      | _ => simp [Kind.calc]
    · cases i with
      | queue m =>
        constructor
        · intro hc
          simp only [Kind.calc, reduceCtorEq, if_false] at hc
          cases hv : rollingValue e init least f m with
          | none => rw [hv] at hc; cases hc
          | some u =>
            rw [hv] at hc
            simp only [Option.some_inj, Prod.mk.injEq] at hc
            exact ⟨m, rfl, by rw [hv, hc.1], hc.2.symm⟩
        · rintro ⟨m', h1, h2, rfl⟩
          obtain rfl := Inner.queue.inj h1
          simp [Kind.calc, h2]
      | _ => simp [Kind.calc]
    · constructor
      · intro hc
        unfold Kind.remember at hc
        split at hc <;> simp_all
      · rintro ⟨m, x, rfl, rfl, rfl⟩; rfl
    · unfold rollingValue
      rw [window_length]
      by_cases hc : Min.min t w < least
      · rw [if_pos hc, Option.some_inj, eq_ofF]
        exact ⟨fun h => ⟨fun _ => h, fun h' => by omega⟩, fun h => h.1 hc⟩
      · rw [if_neg hc, Option.some_inj, eq_ofF]
        have hm : (window w (fun s => asF (x s)) t).map Val.num = ((List.range' (t - w) (Min.min t w)).map x).map Val.num := by
          simp [window, asF, ofF]
        rw [hm]
        constructor
        · exact fun h => ⟨fun h' => absurd h' hc, fun _ => ⟨_, agg_iff.1 rfl, h⟩⟩
        · intro h
          obtain ⟨q, h1, h2⟩ := h.2 (by omega)
          rwa [agg_iff.2 h1]
  | rollingIndex s w init least f =>
    refine rolling_local (e := e) (h := h) (n := n) (nodes := nodes) (solve := solve) (k := .rollingIndex s w init least f)
      (s := s) (w := w) (least := least) (Initial := fun v => Index v init)
      (Agg := fun vs v => ∃ m, AggIdx f (vs.map Val.idx) m ∧ Index v m)
      (conv := asU) (val := rollingIndexValue init least f) hn hp ht rfl rfl rfl rfl (fun t i xs v i' => ?_)
      (fun t i xs v i' => ?_) (fun i xs i' => ?_) (fun x t v => ?_)
    · cases i with
      | queue m =>
        constructor
        · intro hc
          simp only [Kind.calc, if_true] at hc
          cases hv : rollingIndexValue init least f m with
          | none => rw [hv] at hc; cases hc
          | some u =>
            rw [hv] at hc
            rcases xs with _ | ⟨_ | x, _ | ⟨y, ys⟩⟩ <;> simp only [reduceCtorEq, Option.some_inj, Prod.mk.injEq] at hc
            obtain ⟨rfl, rfl⟩ := hc
            exact ⟨m, x, rfl, hv, rfl, rfl⟩
        · rintro ⟨m', x, h1, h2, rfl, rfl⟩
          obtain rfl := Inner.queue.inj h1
          simp [Kind.calc, h2]
      | _ => simp [Kind.calc]
    · cases i with
      | queue m =>
        constructor
        · intro hc
          simp only [Kind.calc, reduceCtorEq, if_false] at hc
          cases hv : rollingIndexValue init least f m with
          | none => rw [hv] at hc; cases hc
          | some u =>
            rw [hv] at hc
            simp only [Option.some_inj, Prod.mk.injEq] at hc
            exact ⟨m, rfl, by rw [hv, hc.1], hc.2.symm⟩
        · rintro ⟨m', h1, h2, rfl⟩
          obtain rfl := Inner.queue.inj h1
          simp [Kind.calc, h2]
      | _ => simp [Kind.calc]
    · constructor
      · intro hc
        unfold Kind.remember at hc
        split at hc <;> simp_all
      · rintro ⟨m, x, rfl, rfl, rfl⟩; rfl
    · unfold rollingIndexValue
      rw [window_length]
      by_cases hc : Min.min t w < least
      · rw [if_pos hc, Option.some_inj, eq_ofU]
        exact ⟨fun h => ⟨fun _ => h, fun h' => by omega⟩, fun h => h.1 hc⟩
      · rw [if_neg hc]
        have hm : (window w (fun s => asU (x s)) t).map Val.idx = ((List.range' (t - w) (Min.min t w)).map x).map Val.idx := by
          simp [window, asU, ofU]
        rw [hm, Option.map_eq_some_iff]
        simp only [eq_ofU, agg_idx_iff]
        exact ⟨fun h => ⟨fun h' => absurd h' hc, fun _ => h⟩, fun h => h.2 (by omega)⟩
  | asymmetric on off =>
    obtain rfl := one_form rfl ht
    refine machine_local hn hp ht rfl rfl _ fun xs hxs => ?_
    have h3 := fun t => two (hxs t)
    choose o1 o2 h3 h4 h5 using h3
    have h6 : (Kind.asymmetric on off).setup = onCount (WasOn (fun t => Idx bs h .before t .before on)
        (fun t => Idx bs h .before t .before off) 0) := by
      rw [onCount_neg]
      · rfl
      · rintro ⟨s, h7, -⟩; omega
    rw [h6]
    refine machine n (fun t i => (Kind.asymmetric on off).calc e .before t i (xs t))
      (fun t => onCount (WasOn (fun t => Idx bs h .before t .before on) (fun t => Idx bs h .before t .before off) t))
      (fun t v => (∃ i, Idx bs h .before t .before on i ∧ (i = 0 → WasOn (fun t => Idx bs h .before t .before on)
          (fun t => Idx bs h .before t .before off) t → ∃ j, Idx bs h .before t .before off j)) ∧
        (IsOn (fun t => Idx bs h .before t .before on) (fun t => Idx bs h .before t .before off) t → Index v 1) ∧
        (¬ IsOn (fun t => Idx bs h .before t .before on) (fun t => Idx bs h .before t .before off) t → Index v 0))
      (fun t v s => ?_) (fun t => h.value t .before name)
    simp only [h3]
    exact asymmetric_step _ _ (fun i => (h4 t).idx i) (fun i => (h5 t).idx i) v s
  | threshold x y p ratchet =>
    obtain rfl := one_form rfl ht
    refine machine_local hn hp ht rfl rfl _ fun xs hxs => ?_
    have h3 := fun t => two (hxs t)
    choose o1 o2 h3 h4 h5 using h3
    have h6 : (Kind.threshold x y p ratchet).setup = flagOf (∃ s < 0, Met p (fun t => Num bs h .before t .before x)
        (fun t => Num bs h .before t .before y) s) := by
      rw [flagOf_neg]
      · rfl
      · rintro ⟨s, h7, -⟩; omega
    rw [h6]
    refine machine n (fun t i => (Kind.threshold x y p ratchet).calc e .before t i (xs t))
      (fun t => flagOf (∃ s < t, Met p (fun t => Num bs h .before t .before x) (fun t => Num bs h .before t .before y) s))
      (fun t v => (ratchet = true ∧ (∃ s < t, Met p (fun t => Num bs h .before t .before x)
          (fun t => Num bs h .before t .before y) s) ∧ Index v 1) ∨
        (¬ (ratchet = true ∧ ∃ s < t, Met p (fun t => Num bs h .before t .before x)
            (fun t => Num bs h .before t .before y) s) ∧
          ∃ a b, Num bs h .before t .before x a ∧ Num bs h .before t .before y b ∧ (Meets p a b → Index v 1) ∧
            (¬ Meets p a b → Index v 0)))
      (fun t v s => ?_) (fun t => h.value t .before name)
    simp only [h3]
    exact threshold_step _ _ (fun i => (h4 t).num i) (fun i => (h5 t).num i) v s
  | multiThreshold x ys p ratchet =>
    obtain rfl := one_form rfl ht
    refine machine_local hn hp ht rfl rfl _ fun xs hxs => ?_
    have hfound : ∀ t i, found p (xs t) = some i ↔
        ∃ a, Num bs h .before t .before x a ∧ First p a (Num bs h .before t .before) ys i := by
      intro t i
      have hx := hxs t
      generalize xs t = l at hx
      cases hx with
      | @cons _ o _ os h1 h2 =>
        have hpos := fun q => position_iff (y := Num bs h .before t .before) (p := p) (q := q)
          (h2.imp fun s o hr b => hr.num b) 0 i
        cases o with
        | none =>
          simp only [found, reduceCtorEq, false_iff]
          rintro ⟨a, h3, -⟩
          obtain ⟨v, h4, -⟩ := (h1.num a).1 h3
          cases h4
        | some v =>
          simp only [found, hpos, Nat.zero_le, true_and, Nat.sub_zero]
          constructor
          · exact fun h3 => ⟨_, (h1.num _).2 ⟨v, rfl, rfl⟩, h3⟩
          · rintro ⟨a, h3, h4⟩
            obtain ⟨v', h5, rfl⟩ := (h1.num a).1 h3
            cases h5
            exact h4
    have h6 : (Kind.multiThreshold x ys p ratchet).setup =
        .count (if ratchet then greatest (fun s => (found p (xs s)).getD 0) 0 else 0) := by
      cases ratchet <;> rfl
    rw [h6]
    refine (machine n (fun t i => (Kind.multiThreshold x ys p ratchet).calc e .before t i (xs t))
      (fun t => .count (if ratchet then greatest (fun s => (found p (xs s)).getD 0) t else 0))
      (fun t v => ∃ i, found p (xs t) = some i ∧
        Index v (if ratchet then greatest (fun s => (found p (xs s)).getD 0) (t + 1) else i))
      (fun t v s => multi_step xs v s) (fun t => h.value t .before name)).trans ?_
    simp only [Holds, Positioned, ← hfound]
    constructor
    · intro h1
      refine ⟨fun t => (found p (xs t)).getD 0, fun t hlt => ?_, fun t hlt => ?_⟩
      · obtain ⟨i, h2, -⟩ := h1 t hlt
        simp [h2]
      · obtain ⟨i, h2, h3⟩ := h1 t hlt
        refine ⟨_, h3, ?_⟩
        cases ratchet
        · simp [h2]
        · simp only [if_true]
          exact (greatest_iff _ _ _).2 rfl
    · rintro ⟨i, h1, h2⟩ t hlt
      obtain ⟨m, h3, h4⟩ := h2 t hlt
      refine ⟨i t, h1 t hlt, ?_⟩
      have : early h name (.general true .none) t = h.value t .before name := rfl
      rw [this] at h3
      cases ratchet
      · simp only [Bool.false_eq_true, if_false] at h4 ⊢
        rwa [← h4]
      · simp only [if_true] at h4 ⊢
        rw [greatest_iff] at h4
        rw [greatest_congr (j := i) fun s hs => by rw [h1 s (by omega)]; rfl, ← h4]
        exact h3
  | _ => exact plain_local hn (by simp [Kind.Plain]) hp ht

end Verif.Kinds
