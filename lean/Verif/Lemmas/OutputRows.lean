import Verif.Lemmas.OutputRuns

/-!
# What the recorders make of the frames
-/

namespace Verif.Agg

open Verif.Calendar Verif.Time

variable {σ ρ ι α : Type}

theorem yields_length (levels : List Level) : ∀ (xs : List PeriodValue) (s : List (List PeriodValue)) (c : List (Option PeriodValue)),
    yields levels s xs = some c → c.length = xs.length + 1 := by
  intro xs
  induction xs with
  | nil =>
    intro s c h
    simp only [yields] at h
    cases hf : finalise levels s with
    | none => rw [hf] at h; simp at h
    | some y => rw [hf] at h; simp only [Option.map_some, Option.some.injEq] at h; subst h; rfl
  | cons v vs ih =>
    intro s c h
    simp only [yields] at h
    cases ha : append levels s v with
    | none => rw [ha] at h; simp at h
    | some y =>
      rw [ha] at h
      simp only at h
      cases hy : yields levels y.1 vs with
      | none => rw [hy] at h; simp at h
      | some d =>
        rw [hy] at h
        simp only [Option.map_some, Option.some.injEq] at h
        subst h
        simp [ih y.1 d hy]

theorem yieldsOf_length {m : MetricSet σ} {xs : List PeriodValue} {c : List (Option PeriodValue)} (h : yieldsOf m xs = some c) :
    c.length = xs.length + 1 := by
  unfold yieldsOf at h
  cases hm : m.aggregator with
  | none => rw [hm] at h; simp only [Option.some.injEq] at h; subst h; simp
  | some levels => rw [hm] at h; exact yields_length levels xs _ c h

/-! ## Rows of a set -/

theorem rowOf_map {ms : List α} (hne : ms ≠ []) {p : PeriodValue} {W : α → PeriodValue} (hp : ∀ x ∈ ms, Same p (W x)) :
    rowOf (ms.map W) = some { start := p.start, duration := p.duration, values := ms.map fun x => (W x).value } := by
  obtain ⟨x, ms, rfl⟩ := List.exists_cons_of_ne_nil hne
  have hl : ∃ y ∈ x :: ms, ((x :: ms).map W).getLast? = some (W y) := by
    refine ⟨(x :: ms).getLast hne, List.getLast_mem hne, ?_⟩
    rw [List.getLast?_map, List.getLast?_eq_some_getLast hne]
    rfl
  obtain ⟨y, hy, hyl⟩ := hl
  unfold rowOf
  rw [hyl]
  simp only [List.map_cons, List.head?_cons]
  rw [← (hp x List.mem_cons_self).1, ← (hp y hy).2]
  simp

/-- The rows that are not empty. -/
def rowsOf (t : List (Option (List PeriodValue))) : List Row := t.filterMap fun c => c.bind rowOf

theorem joined_rowsOf {ms : List α} (hne : ms ≠ []) {c : List (Option PeriodValue)} {t : List (Option (List PeriodValue))}
    {r : α → List (Option PeriodValue)} (h : Joined ms c t r) :
    (∀ v ∈ t, ∀ row, v = some row → rowOf row ≠ none) ∧ (∀ row ∈ rowsOf t, row.values.length = ms.length) ∧
      ∀ (j : Nat) (x : α), ms[j]? = some x → (rowsOf t).filterMap (fun row => row.values[j]?.map fun v =>
        ({ start := row.start, duration := row.duration, value := v } : PeriodValue)) = (r x).filterMap id := by
  induction h with
  | nil h =>
    refine ⟨by simp, by simp [rowsOf], fun j x hx => ?_⟩
    simp [rowsOf, h x (List.mem_of_getElem? hx)]
  | none h _ ih =>
    obtain ⟨h1, h2, h3⟩ := ih
    refine ⟨?_, ?_, fun j x hx => ?_⟩
    · intro v hv row hr
      rcases List.mem_cons.mp hv with rfl | hv
      · cases hr
      · exact h1 v hv row hr
    · simpa [rowsOf] using h2
    · rw [h x (List.mem_of_getElem? hx)]
      simpa [rowsOf] using h3 j x hx
  | @some r r' c t p W hp h _ ih =>
    obtain ⟨h1, h2, h3⟩ := ih
    have hrow := rowOf_map hne hp
    have hcons : rowsOf (some (ms.map W) :: t) =
        { start := p.start, duration := p.duration, values := ms.map fun x => (W x).value } :: rowsOf t := by
      simp [rowsOf, hrow]
    refine ⟨?_, ?_, fun j x hx => ?_⟩
    · intro v hv row hr
      rcases List.mem_cons.mp hv with rfl | hv
      · cases hr; rw [hrow]; simp
      · exact h1 v hv row hr
    · rw [hcons]
      intro row hr
      rcases List.mem_cons.mp hr with rfl | hr
      · simp
      · exact h2 row hr
    · have hxm := List.mem_of_getElem? hx
      rw [h x hxm, hcons]
      simp only [List.filterMap_cons, List.getElem?_map, hx, Option.map_some, id_eq, h3 j x hx]
      congr 1
      obtain ⟨e1, e2⟩ := hp x hxm
      rw [e1, e2]

/-! ## Memory -/

theorem memoryWrite_fun {sets : List (MetricSet σ)} {idx : Nat} {m : MetricSet σ} (hm : sets[idx]? = some m)
    (F : ι → MetricSet σ → Option (List PeriodValue)) (D : ι → List Row) : ∀ L : List ι,
    (∀ i ∈ L, ∀ row, F i m = some row → rowOf row ≠ none) →
      memoryWrite idx (L.map fun i => sets.map (F i)) (L.map D) = .ok (L.map fun i => D i ++ ((F i m).bind rowOf).toList) := by
  intro L
  induction L with
  | nil => intro _; rfl
  | cons i L ih =>
    intro h
    simp only [List.map_cons, memoryWrite, List.getElem?_map, hm, Option.map_some, ih fun y hy => h y (List.mem_cons_of_mem _ hy)]
    cases hF : F i m with
    | none => simp
    | some row =>
      have := h i List.mem_cons_self row hF
      cases hr : rowOf row with
      | none => exact absurd hr this
      | some v => simp [hr]

theorem writes_memory {sets : List (MetricSet σ)} {idx : Nat} {m : MetricSet σ} (hm : sets[idx]? = some m) (L : List ι) :
    ∀ (n : Nat) (tr : ι → MetricSet σ → List (Option (List PeriodValue))) (D : ι → List Row),
      (∀ i ∈ L, (tr i m).length = n) → (∀ i ∈ L, ∀ v ∈ tr i m, ∀ row, v = some row → rowOf row ≠ none) →
      writes (memoryWrite idx) (framesOf L sets n tr) (L.map D) = .ok (L.map fun i => D i ++ rowsOf (tr i m)) := by
  intro n
  induction n with
  | zero =>
    intro tr D hn _
    simp only [framesOf, writes]
    congr 1
    refine List.map_congr_left fun i hi => ?_
    rw [List.length_eq_zero_iff.mp (hn i hi)]
    simp [rowsOf]
  | succ n ih =>
    intro tr D hn hr
    have hcons : ∀ i ∈ L, ∃ v t, tr i m = v :: t := fun i hi => List.exists_cons_of_length_eq_add_one (hn i hi)
    simp only [framesOf, writes]
    rw [memoryWrite_fun hm (fun i m => (tr i m).headD none) D L]
    · simp only
      rw [ih]
      · congr 1
        refine List.map_congr_left fun i hi => ?_
        obtain ⟨v, t, h⟩ := hcons i hi
        simp only [h, List.headD_cons, List.tail_cons, rowsOf, List.filterMap_cons]
        cases v.bind rowOf <;> simp
      · intro i hi
        rw [List.length_tail, hn i hi]; rfl
      · intro i hi v hv
        exact hr i hi v (List.mem_of_mem_tail hv)
    · intro i hi row hrow
      obtain ⟨v, t, h⟩ := hcons i hi
      simp only [h, List.headD_cons] at hrow
      exact hr i hi v (by rw [h]; exact List.mem_cons_self) row hrow

/-! ## Wide format -/

theorem wideRow_none {sets : List (MetricSet σ)} {idx : Nat} {m : MetricSet σ} (hm : sets[idx]? = some m)
    (F : ι → MetricSet σ → Option (List PeriodValue)) (row : Option (DateTime × List ℚ)) : ∀ L : List ι, (∀ i ∈ L, F i m = none) →
      wideRow idx row (L.map fun i => sets.map (F i)) = .ok row := by
  intro L
  induction L with
  | nil => intro _; rfl
  | cons i L ih =>
    intro h
    simp only [List.map_cons, wideRow, List.getElem?_map, hm, Option.map_some, h i List.mem_cons_self,
      ih fun y hy => h y (List.mem_cons_of_mem _ hy)]

theorem wideRow_more {sets : List (MetricSet σ)} {idx : Nat} {m : MetricSet σ} (hm : sets[idx]? = some m)
    (F : ι → MetricSet σ → Option (List PeriodValue)) (V : ι → List PeriodValue) (start : DateTime) : ∀ (L : List ι) (cells : List ℚ),
      (∀ i ∈ L, F i m = some (V i)) → wideRow idx (some (start, cells)) (L.map fun i => sets.map (F i)) =
        .ok (some (start, cells ++ L.flatMap fun i => (V i).map fun v => hundredths v.value)) := by
  intro L
  induction L with
  | nil => intro cells _; simp [wideRow]
  | cons i L ih =>
    intro cells h
    simp only [List.map_cons, wideRow, List.getElem?_map, hm, Option.map_some, h i List.mem_cons_self,
      ih _ fun y hy => h y (List.mem_cons_of_mem _ hy), List.flatMap_cons, List.append_assoc]

theorem wideRow_some {sets : List (MetricSet σ)} {idx : Nat} {m : MetricSet σ} (hm : sets[idx]? = some m)
    (F : ι → MetricSet σ → Option (List PeriodValue)) (V : ι → List PeriodValue) {L : List ι} (hL : L ≠ []) {start : DateTime}
    (h : ∀ i ∈ L, F i m = some (V i) ∧ (V i).head?.map (·.start) = some start) :
      wideRow idx none (L.map fun i => sets.map (F i)) = .ok (some (start, L.flatMap fun i => (V i).map fun v => hundredths v.value)) := by
  cases L with
  | nil => exact absurd rfl hL
  | cons i L =>
    obtain ⟨h1, h2⟩ := h i List.mem_cons_self
    cases hh : (V i).head? with
    | none => rw [hh] at h2; simp at h2
    | some v =>
      rw [hh] at h2
      simp only [Option.map_some, Option.some.injEq] at h2
      simp only [List.map_cons, wideRow, List.getElem?_map, hm, Option.map_some, h1, hh, h2,
        wideRow_more hm F V start L _ fun y hy => (h y (List.mem_cons_of_mem _ hy)).1, List.flatMap_cons]

/-- The rows of the wide file, from the current values of the scenarios: the periods are those of the first list. -/
def wideRows (L : List ι) : List (Option PeriodValue) → (ι → List (Option (List PeriodValue))) → List (DateTime × List ℚ)
  | [], _ => []
  | none :: c, t => wideRows L c fun i => (t i).tail
  | some p :: c, t =>
    (p.start, L.flatMap fun i => (((t i).headD none).getD []).map fun v => hundredths v.value) :: wideRows L c fun i => (t i).tail

theorem flatMap_length_const {β : Type} (L : List ι) (f : ι → List β) (n : Nat) (h : ∀ i ∈ L, (f i).length = n) :
    (L.flatMap f).length = L.length * n := by
  induction L with
  | nil => simp
  | cons i L ih =>
    rw [List.flatMap_cons, List.length_append, h i List.mem_cons_self, ih fun y hy => h y (List.mem_cons_of_mem _ hy),
      List.length_cons]
    ring

theorem writes_wide {sets : List (MetricSet σ)} {idx : Nat} {m : MetricSet σ} (hm : sets[idx]? = some m) (hne : m.metrics ≠ [])
    {L : List ι} (hL : L ≠ []) : ∀ (n : Nat) (c : List (Option PeriodValue)) (tr : ι → MetricSet σ → List (Option (List PeriodValue)))
      (r : ι → OutMetric σ → List (Option PeriodValue)) (file : List Line) (first : Line), file.head? = some first →
      first.width = L.length * m.metrics.length + 1 → c.length = n → (∀ i ∈ L, Joined m.metrics c (tr i m) (r i)) →
      writes (wideWrite idx) (framesOf L sets n tr) file =
        .ok (file ++ (wideRows L c fun i => tr i m).map fun x => Line.row x.1 x.2) := by
  intro n
  induction n with
  | zero =>
    intro c tr r file first _ _ hn _
    rw [List.length_eq_zero_iff.mp hn]
    simp [framesOf, writes, wideRows]
  | succ n ih =>
    intro c tr r file first hf hw hn hj
    obtain ⟨o, c, rfl⟩ := List.exists_cons_of_length_eq_add_one hn
    have hn' : c.length = n := by simpa using hn
    cases o with
    | none =>
      have hh : ∀ i ∈ L, ∃ t r', tr i m = none :: t ∧ Joined m.metrics c t r' := by
        intro i hi
        have := hj i hi
        revert this
        generalize tr i m = u
        generalize r i = v
        intro h
        cases h with
        | none _ k => exact ⟨_, _, rfl, k⟩
      simp only [framesOf, writes, wideWrite]
      rw [wideRow_none hm (fun i m => (tr i m).headD none) none L fun i hi => by
        obtain ⟨t, _, h, _⟩ := hh i hi; simp [h]]
      simp only
      rw [ih c (fun i m => (tr i m).tail) (fun i => fun x => (r i x).tail) file first hf hw hn']
      · rfl
      · intro i hi
        have := hj i hi
        revert this
        generalize tr i m = u
        generalize r i = v
        intro h
        cases h with
        | none h k =>
          refine joined_congr k fun x hx => ?_
          rw [h x hx]; rfl
    | some p =>
      have hh : ∀ i ∈ L, ∃ W : OutMetric σ → PeriodValue, (tr i m).headD none = some (m.metrics.map W) ∧
          ∀ x ∈ m.metrics, Same p (W x) := by
        intro i hi
        have := hj i hi
        revert this
        generalize tr i m = u
        generalize r i = v
        intro h
        cases h with
        | some W hp _ _ => exact ⟨W, rfl, hp⟩
      have hV : ∀ i ∈ L, (tr i m).headD none = some (((tr i m).headD none).getD []) ∧
          (((tr i m).headD none).getD []).head?.map (·.start) = some p.start ∧
          (((tr i m).headD none).getD []).length = m.metrics.length := by
        intro i hi
        obtain ⟨W, h1, h2⟩ := hh i hi
        rw [h1]
        refine ⟨rfl, ?_, by simp⟩
        obtain ⟨x, ms, hx⟩ := List.exists_cons_of_ne_nil hne
        rw [hx]
        simp only [Option.getD_some, List.map_cons, List.head?_cons, Option.map_some, Option.some.injEq]
        exact (h2 x (by rw [hx]; exact List.mem_cons_self)).1.symm
      have hrow := wideRow_some hm (fun i m => (tr i m).headD none) (fun i => ((tr i m).headD none).getD []) hL
        (start := p.start) fun i hi => ⟨(hV i hi).1, (hV i hi).2.1⟩
      have hlen : (L.flatMap fun i => (((tr i m).headD none).getD []).map fun v => hundredths v.value).length =
          L.length * m.metrics.length := flatMap_length_const L _ _ fun i hi => by rw [List.length_map, (hV i hi).2.2]
      have hpos : 0 < L.length * m.metrics.length := Nat.mul_pos (List.length_pos_of_ne_nil hL) (List.length_pos_of_ne_nil hne)
      have hne' : ¬ (L.flatMap fun i => (((tr i m).headD none).getD []).map fun v => hundredths v.value) = [] := by
        intro h; rw [h] at hlen; simp only [List.length_nil] at hlen; omega
      obtain ⟨g, gs, rfl⟩ : ∃ g gs, file = g :: gs := by
        cases file with
        | nil => simp at hf
        | cons g gs => exact ⟨g, gs, rfl⟩
      simp only [List.head?_cons, Option.some.injEq] at hf
      subst hf
      simp only [framesOf, writes, wideWrite, hrow, if_neg hne', writeLine]
      rw [if_pos (by rw [hw]; simp only [Line.width, hlen])]
      simp only
      rw [ih c (fun i m => (tr i m).tail) (fun i => fun x => (r i x).tail) _ g (by simp) hw hn']
      · simp [wideRows]
      · intro i hi
        have := hj i hi
        revert this
        generalize tr i m = u
        generalize r i = v
        intro h
        cases h with
        | some W hp h k =>
          refine joined_congr k fun x hx => ?_
          rw [h x hx]; rfl
where
  joined_congr {α : Type} {ms : List α} {c : List (Option PeriodValue)} {t : List (Option (List PeriodValue))}
      {r s : α → List (Option PeriodValue)} (h : Joined ms c t r) (hrs : ∀ x ∈ ms, s x = r x) : Joined ms c t s := by
    cases h with
    | nil h => exact .nil fun x hx => (hrs x hx).trans (h x hx)
    | none h k => exact .none (fun x hx => (hrs x hx).trans (h x hx)) k
    | some W hp h k => exact .some W hp (fun x hx => (hrs x hx).trans (h x hx)) k

end Verif.Agg
