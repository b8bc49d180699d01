import Verif.Lemmas.OutputRows
import Mathlib.Data.List.Nodup

/-!
# Columns of the wide file and records of the long file
-/

namespace Verif.Agg

open Verif.Calendar Verif.Time

variable {σ ρ ι α β : Type}

theorem flatMap_getElem? (f : ι → List β) (n : Nat) : ∀ (L : List ι), (∀ i ∈ L, (f i).length = n) → ∀ (a j : Nat) (i : ι), L[a]? = some i →
    j < n → (L.flatMap f)[a * n + j]? = (f i)[j]? := by
  intro L
  induction L with
  | nil => intro _ a j i h; simp at h
  | cons x L ih =>
    intro hn a j i h hj
    have hx := hn x List.mem_cons_self
    rw [List.flatMap_cons]
    cases a with
    | zero =>
      simp only [List.getElem?_cons_zero, Option.some.injEq] at h
      subst h
      rw [Nat.zero_mul, Nat.zero_add, List.getElem?_append_left (by omega)]
    | succ a =>
      rw [List.getElem?_append_right (by rw [hx]; nlinarith)]
      rw [hx]
      have : (a + 1) * n + j - n = a * n + j := by rw [Nat.add_mul]; omega
      rw [this]
      exact ih (fun y hy => hn y (List.mem_cons_of_mem _ hy)) a j i (by simpa using h) hj

theorem wideRows_column {ms : List α} {L : List ι} : ∀ (c : List (Option PeriodValue)) (t : ι → List (Option (List PeriodValue)))
      (r : ι → α → List (Option PeriodValue)), (∀ i ∈ L, Joined ms c (t i) (r i)) →
      (∀ row ∈ wideRows L c t, row.2.length = L.length * ms.length) ∧
      ∀ (a j : Nat) (i : ι) (x : α), L[a]? = some i → ms[j]? = some x →
        ((wideRows L c t).map fun row => row.2[a * ms.length + j]?.map fun v => (row.1, v)) =
          ((r i x).filterMap id).map fun v => some (v.start, hundredths v.value) := by
  intro c
  induction c with
  | nil =>
    intro t r hj
    refine ⟨by simp [wideRows], fun a j i x hi hx => ?_⟩
    have := hj i (List.mem_of_getElem? hi)
    revert this
    generalize t i = u
    generalize r i = v
    intro h
    cases h with
    | nil h => simp [wideRows, h x (List.mem_of_getElem? hx)]
  | cons o c ih =>
    intro t r hj
    have hnext : ∀ i ∈ L, Joined ms c (t i).tail fun x => (r i x).tail := by
      intro i hi
      have := hj i hi
      revert this
      generalize t i = u
      generalize r i = v
      intro h
      cases h with
      | none h k => exact writes_wide.joined_congr k fun x hx => by rw [h x hx]; rfl
      | some W hp h k => exact writes_wide.joined_congr k fun x hx => by rw [h x hx]; rfl
    obtain ⟨ih1, ih2⟩ := ih (fun i => (t i).tail) (fun i x => (r i x).tail) hnext
    cases o with
    | none =>
      refine ⟨ih1, fun a j i x hi hx => ?_⟩
      rw [show wideRows L (none :: c) t = wideRows L c fun i => (t i).tail from rfl, ih2 a j i x hi hx]
      have := hj i (List.mem_of_getElem? hi)
      revert this
      generalize t i = u
      generalize r i = v
      intro h
      cases h with
      | none h k => rw [h x (List.mem_of_getElem? hx)]; rfl
    | some p =>
      have hlen : ∀ i ∈ L, ((((t i).headD none).getD []).map fun v => hundredths v.value).length = ms.length := by
        intro i hi
        have := hj i hi
        revert this
        generalize t i = u
        generalize r i = v
        intro h
        cases h with
        | some W hp h k => simp
      refine ⟨?_, fun a j i x hi hx => ?_⟩
      · intro row hrow
        simp only [wideRows, List.mem_cons] at hrow
        rcases hrow with rfl | hrow
        · exact flatMap_length_const L _ _ hlen
        · exact ih1 row hrow
      · have hjlt : j < ms.length := by
          by_contra hc
          rw [List.getElem?_eq_none (by omega)] at hx
          cases hx
        simp only [wideRows, List.map_cons, ih2 a j i x hi hx, flatMap_getElem? _ _ L hlen a j i hi hjlt]
        have := hj i (List.mem_of_getElem? hi)
        revert this
        generalize t i = u
        generalize r i = v
        intro h
        cases h with
        | some W hp h k =>
          have hxm := List.mem_of_getElem? hx
          rw [h x hxm]
          simp [hx, (hp x hxm).1]

/-! ## Long format -/

/-- The records of one frame. -/
def frameRecords (sel : List (MetricSet σ)) (places : Option Nat) (scen : List (ScenarioName × ι))
    (F : ι → MetricSet σ → Option (List PeriodValue)) : List LongRecord :=
  scen.flatMap fun s => sel.flatMap fun m => ((F s.2 m).map (setRecords m places s.1)).getD []

theorem scenarioRecords_fun (sets : List (MetricSet σ)) (places : Option Nat) (s : ScenarioName) (G : MetricSet σ → Option (List PeriodValue)) :
    ∀ indices : List Nat, (∀ k ∈ indices, sets[k]? ≠ none) → scenarioRecords sets places s (sets.map G) indices =
      .ok ((indices.filterMap (sets[·]?)).flatMap fun m => ((G m).map (setRecords m places s)).getD []) := by
  intro indices
  induction indices with
  | nil => intro _; rfl
  | cons k indices ih =>
    intro h
    have hk := h k List.mem_cons_self
    have ih' := ih fun y hy => h y (List.mem_cons_of_mem _ hy)
    cases hm : sets[k]? with
    | none => exact absurd hm hk
    | some m =>
      cases hG : G m with
      | none => simp [scenarioRecords, hm, hG, ih']
      | some vs => simp [scenarioRecords, hm, hG, ih']

theorem allRecords_fun (sets : List (MetricSet σ)) (places : Option Nat) (indices : List Nat) (hk : ∀ k ∈ indices, sets[k]? ≠ none)
    (F : ι → MetricSet σ → Option (List PeriodValue)) : ∀ (scenarios : List ScenarioName) (L : List ι),
      allRecords sets places indices scenarios (L.map fun i => sets.map (F i)) =
        .ok (frameRecords (indices.filterMap (sets[·]?)) places (scenarios.zip L) F) := by
  intro scenarios
  induction scenarios with
  | nil => intro L; cases L <;> simp [allRecords, frameRecords]
  | cons s scenarios ih =>
    intro L
    cases L with
    | nil => simp [allRecords, frameRecords]
    | cons i L =>
      simp only [List.map_cons, allRecords, scenarioRecords_fun sets places s (F i) indices hk, ih L]
      simp [frameRecords]

theorem filter_flatMap_key {γ κ : Type} (f : γ → List β) (key : γ → κ) (p : β → Bool) (a : γ) : ∀ l : List γ, (l.map key).Nodup → a ∈ l →
    (∀ b ∈ l, key b ≠ key a → (f b).filter p = []) → (l.flatMap f).filter p = (f a).filter p := by
  intro l
  induction l with
  | nil => intro _ h; simp at h
  | cons b l ih =>
    intro hnd ha h
    simp only [List.map_cons, List.nodup_cons] at hnd
    rw [List.flatMap_cons, List.filter_append]
    by_cases hba : key b = key a
    · have hab : a = b := by
        rcases List.mem_cons.mp ha with h1 | h1
        · exact h1
        · exact absurd (hba ▸ List.mem_map_of_mem h1) hnd.1
      subst hab
      have : (l.flatMap f).filter p = [] := by
        rw [List.filter_flatMap, List.flatMap_eq_nil_iff]
        intro c hc
        refine h c (List.mem_cons_of_mem _ hc) fun he => hnd.1 (he ▸ List.mem_map_of_mem hc)
      rw [this, List.append_nil]
    · rw [h b List.mem_cons_self hba, List.nil_append]
      have hal : a ∈ l := by
        rcases List.mem_cons.mp ha with h1 | h1
        · exact absurd (by rw [h1]) hba
        · exact h1
      exact ih hnd.2 hal fun c hc hca => h c (List.mem_cons_of_mem _ hc) hca

theorem setRecords_other (m : MetricSet σ) (places : Option Nat) (s : ScenarioName) (vs : List PeriodValue) {id : Nat}
    {set name attr : String} (h : s.id ≠ id ∨ m.name ≠ set) : (setRecords m places s vs).filter (isOf id set name attr) = [] := by
  rw [List.filter_eq_nil_iff]
  intro r hr
  simp only [setRecords, List.mem_map] at hr
  obtain ⟨x, _, rfl⟩ := hr
  simp only [isOf]
  rcases h with h | h <;> simp [h]

theorem setRecords_own {m : MetricSet σ} (places : Option Nat) (s : ScenarioName) (W : OutMetric σ → PeriodValue) {x : OutMetric σ}
    (hx : x ∈ m.metrics) (hnd : (m.metrics.map fun x => (x.name, x.attr)).Nodup) :
    (setRecords m places s (m.metrics.map W)).filter (isOf s.id m.name x.name x.attr) =
      [recordOf s m.name x.name x.attr (W x) (toPlaces places (W x).value)] := by
  have hz : setRecords m places s (m.metrics.map W) =
      m.metrics.flatMap fun y => [recordOf s m.name y.name y.attr (W y) (toPlaces places (W y).value)] := by
    unfold setRecords
    generalize m.metrics = l
    induction l with
    | nil => rfl
    | cons y l ih => simp only [List.map_cons, List.zip_cons_cons, List.flatMap_cons]; rw [ih]; rfl
  rw [hz, filter_flatMap_key _ (fun y => (y.name, y.attr)) _ x m.metrics hnd hx]
  · simp [isOf, recordOf]
  · intro y _ hy
    simp only [ne_eq, Prod.mk.injEq, not_and] at hy
    simp only [List.filter_cons, List.filter_nil, isOf, recordOf]
    by_cases h : y.name = x.name
    · simp [hy h]
    · simp [h]

theorem frameRecords_filter {sel : List (MetricSet σ)} {places : Option Nat} {scen : List (ScenarioName × ι)}
    (hid : (scen.map fun s => s.1.id).Nodup) (hsel : (sel.map (·.name)).Nodup) {s : ScenarioName × ι} (hs : s ∈ scen)
    {m : MetricSet σ} (hm : m ∈ sel) (name attr : String) (F : ι → MetricSet σ → Option (List PeriodValue)) :
    (frameRecords sel places scen F).filter (isOf s.1.id m.name name attr) =
      (((F s.2 m).map (setRecords m places s.1)).getD []).filter (isOf s.1.id m.name name attr) := by
  unfold frameRecords
  rw [filter_flatMap_key _ (fun s => s.1.id) _ s scen hid hs, filter_flatMap_key _ (fun m => m.name) _ m sel hsel hm]
  · intro n _ hn
    cases F s.2 n with
    | none => rfl
    | some vs => exact setRecords_other n places s.1 vs (Or.inr hn)
  · intro u _ hu
    rw [List.filter_flatMap, List.flatMap_eq_nil_iff]
    intro n _
    cases F u.2 n with
    | none => rfl
    | some vs => exact setRecords_other n places u.1 vs (Or.inl hu)

theorem writes_long {sets : List (MetricSet σ)} {places : Option Nat} {indices : List Nat} (hk : ∀ k ∈ indices, sets[k]? ≠ none)
    {scenarios : List ScenarioName} {L : List ι} :
    ∀ (n : Nat) (tr : ι → MetricSet σ → List (Option (List PeriodValue))) (file : List LongRecord),
      ∃ new, writes (longWrite sets places indices scenarios) (framesOf L sets n tr) file = .ok (file ++ new) ∧
        ∀ (s : ScenarioName × ι) (m : MetricSet σ) (x : OutMetric σ) (c : List (Option PeriodValue)) (r : OutMetric σ → List (Option PeriodValue)),
          ((scenarios.zip L).map fun s => s.1.id).Nodup → ((indices.filterMap (sets[·]?)).map (·.name)).Nodup →
          s ∈ scenarios.zip L → m ∈ indices.filterMap (sets[·]?) → x ∈ m.metrics → (m.metrics.map fun x => (x.name, x.attr)).Nodup →
          c.length = n → Joined m.metrics c (tr s.2 m) r →
          new.filter (isOf s.1.id m.name x.name x.attr) =
            ((r x).filterMap id).map fun v => recordOf s.1 m.name x.name x.attr v (toPlaces places v.value) := by
  intro n
  induction n with
  | zero =>
    intro tr file
    refine ⟨[], by simp [framesOf, writes], ?_⟩
    intro s m x c r _ _ _ _ hx _ hc hj
    rw [List.length_eq_zero_iff.mp hc] at hj
    revert hj
    generalize tr s.2 m = u
    intro h
    cases h with
    | nil h => simp [h x hx]
  | succ n ih =>
    intro tr file
    obtain ⟨new, h1, h2⟩ := ih (fun i m => (tr i m).tail)
      (file ++ frameRecords (indices.filterMap (sets[·]?)) places (scenarios.zip L) fun i m => (tr i m).headD none)
    refine ⟨(frameRecords (indices.filterMap (sets[·]?)) places (scenarios.zip L) fun i m => (tr i m).headD none) ++ new, ?_, ?_⟩
    · simp only [framesOf, writes, longWrite, allRecords_fun sets places indices hk (fun i m => (tr i m).headD none) scenarios L]
      rw [← List.append_assoc]
      exact h1
    · intro s m x c r hid hsel hs hm hx hnd hc hj
      obtain ⟨o, c, rfl⟩ := List.exists_cons_of_length_eq_add_one hc
      have hnext : Joined m.metrics c (tr s.2 m).tail fun x => (r x).tail := by
        revert hj
        generalize tr s.2 m = u
        intro h
        cases h with
        | none h k => exact writes_wide.joined_congr k fun x hx => by rw [h x hx]; rfl
        | some W hp h k => exact writes_wide.joined_congr k fun x hx => by rw [h x hx]; rfl
      rw [List.filter_append, frameRecords_filter hid hsel hs hm, h2 s m x c _ hid hsel hs hm hx hnd (by simpa using hc) hnext]
      revert hj
      generalize tr s.2 m = u
      intro h
      cases h with
      | none h k => rw [h x hx]; simp
      | some W hp h k =>
        rw [h x hx]
        simp only [List.headD_cons, Option.map_some, Option.getD_some, setRecords_own places s.1 W hx hnd, List.filterMap_cons, id_eq,
          List.tail_cons, List.map_cons, List.singleton_append]

end Verif.Agg
