import Verif.Props.Timeseries

/-!
# C85: frames, collections and references
-/

namespace Verif.Timeseries

open Verif.Time Verif.Calendar

/-- **C85 (steps of hours and days).** Steps of a fixed number of hours or days from a whole second on have equal length. -/
theorem C85_even (start stop : DateTime) (hstart : start.Valid) (hstop : stop.Valid) (hs : 1000000000 ∣ start.ns) (d : TimestepDuration) (D : Nat)
    (hd : fixedLength d = some D) (hpos : 0 < D) {steps : List Timestep} (hb : build start stop d = .ok steps) :
    Even steps (stepTime start) (D / 1000000 : Nat) := by
  obtain ⟨h1, h2⟩ := C01_fixed_time_domain start stop hstart hstop d D hd hpos
  have hle : start.instant ≤ stop.instant := by
    by_contra hc
    rw [h1 (by omega)] at hb
    cases hb
  obtain ⟨L, hL, hspec⟩ := h2 hle
  rw [hb] at hL
  obtain rfl : steps = L := Except.ok.inj hL
  have hdiv : 1000000000 ∣ D := by
    cases d with
    | hours n => simp only [fixedLength, Option.some.injEq] at hd; omega
    | days n => simp only [fixedLength, Option.some.injEq] at hd; omega
    | frequency => simp [fixedLength] at hd
  have hms : ∀ t : DateTime, t.Valid → 1000000000 ∣ t.ns → stepTime t * 1000000 = t.instant := by
    intro t _ ht
    unfold stepTime DateTime.instant nsPerDay
    obtain ⟨q, hq⟩ := ht
    rw [hq]
    simp only [Nat.mul_div_cancel_left _ (by norm_num : 0 < 1000000000)]
    push_cast
    ring
  have h0 : steps[0]? = some ⟨start, 0, D⟩ := (hspec 0 _).2 ⟨hstart, by simp, hle, rfl, rfl⟩
  refine ⟨by omega, ?_, ?_, ?_⟩
  · rintro rfl; simp at h0
  · intro k t ht
    obtain ⟨hv, hi, -⟩ := (hspec k t).1 ht
    have hns : 1000000000 ∣ t.date.ns := by
      have : (t.date.ns : Int) = start.instant + k * D - t.date.date.dayNumber * nsPerDay := by
        rw [← hi]; unfold DateTime.instant; ring
      have hdvd : (1000000000 : Int) ∣ (t.date.ns : Int) := by
        rw [this]
        unfold DateTime.instant nsPerDay
        obtain ⟨a, ha⟩ := hs
        obtain ⟨b, hb⟩ := hdiv
        rw [ha, hb]
        exact ⟨start.date.dayNumber * 86400 + a + k * b - t.date.date.dayNumber * 86400, by push_cast; ring⟩
      exact_mod_cast hdvd
    have e1 := hms t.date hv hns
    have e2 := hms start hstart hs
    have e3 : ((D / 1000000 : Nat) : Int) * 1000000 = D := by
      obtain ⟨b, hb⟩ := hdiv
      rw [hb]; omega
    have : stepTime t.date * 1000000 = (stepTime start + k * ((D / 1000000 : Nat) : Int)) * 1000000 := by
      rw [e1, hi, add_mul, e2, mul_assoc, e3]
    exact mul_right_cancel₀ (by norm_num) this
  · intro t ht
    rw [h0] at ht
    cases ht
    simp only [milliseconds]
    rw [Int.tdiv_eq_ediv_of_nonneg (by omega)]
    norm_cast

theorem alignFrom_ok {steps : List Timestep} {f : Frame} : ∀ (cs : List String) (j : Nat) (out : Columns), f.alignFrom steps j cs = .ok out →
    out.length = cs.length ∧ ∀ (i : Nat) c, cs[i]? = some c → ∃ l, align steps (f.column (j + i)) = .ok l ∧ out[i]? = some (c, l.map (·.value)) := by
  intro cs
  induction cs with
  | nil =>
    intro j out h
    rw [Frame.alignFrom] at h
    split at h
    · cases h
    · cases h; exact ⟨rfl, fun i c hc => by simp at hc⟩
  | cons c cs ih =>
    intro j out h
    rw [Frame.alignFrom] at h
    cases ha : align steps (f.column j) with
    | error e => rw [ha] at h; cases h
    | ok l =>
      rw [ha] at h
      cases hr : Frame.alignFrom steps f (j + 1) cs with
      | error e => rw [hr] at h; cases h
      | ok out' =>
        rw [hr] at h
        cases h
        obtain ⟨h1, h2⟩ := ih (j + 1) out' hr
        refine ⟨by simp [h1], ?_⟩
        intro i c' hc'
        cases i with
        | zero =>
          simp at hc'
          subst hc'
          exact ⟨l, ha, rfl⟩
        | succ i =>
          obtain ⟨l', hl', hout⟩ := h2 i c' (by simpa using hc')
          exact ⟨l', by rw [← hl']; congr 2; omega, by simpa using hout⟩

/-- **C85 (columns).** Each column of a loaded frame is that column of the file, brought to the steps. -/
theorem C85_columns (steps : List Timestep) (f : Frame) (hn : f.columns.Nodup) {cols : Columns} (h : f.load steps = .ok cols) (c : String) (j : Nat)
    (hc : f.columns[j]? = some c) : ∃ l, align steps (f.column j) = .ok l ∧ lookup cols c = some (l.map (·.value)) := by
  obtain ⟨h1, h2⟩ := alignFrom_ok _ _ _ h
  obtain ⟨l, hl, hout⟩ := h2 j c hc
  rw [Nat.zero_add] at hl
  refine ⟨l, hl, ?_⟩
  have hnames : cols.map (·.1) = f.columns := by
    apply List.ext_getElem?
    intro i
    rw [List.getElem?_map]
    cases hi : f.columns[i]? with
    | none =>
      rw [List.getElem?_eq_none (by rw [h1]; exact List.getElem?_eq_none_iff.1 hi)]
      rfl
    | some c' =>
      obtain ⟨l', -, ho⟩ := h2 i c' hi
      rw [ho]; rfl
  unfold lookup
  cases hf : cols.find? (fun e => e.1 == c) with
  | none =>
    have := List.find?_eq_none.1 hf _ (List.mem_of_getElem? hout)
    simp at this
  | some e =>
    have he1 := List.find?_some hf
    simp only [beq_iff_eq] at he1
    obtain ⟨i, hi⟩ := List.mem_iff_getElem?.1 (List.mem_of_find?_eq_some hf)
    have hic : f.columns[i]? = some c := by rw [← hnames, List.getElem?_map, hi]; simp [he1]
    have hij : i = j := by
      have hil : i < f.columns.length := (List.getElem?_eq_some_iff.1 hic).1
      exact (List.getElem?_inj hil hn).1 (hic.trans hc.symm)
    subst hij
    rw [hi] at hout
    simp only [Option.some.injEq] at hout
    simp [hout]

/-- **C85 (collections).** All series are loaded, under different names. -/
theorem fromSchema_ok {steps : List Timestep} : ∀ (ds : List (String × Frame)) (m₀ m : String → Option Columns),
    fromSchema steps ds m₀ = .ok m → (ds.map (·.1)).Nodup ∧ (∀ d ∈ ds, m₀ d.1 = none) ∧
      (∀ d ∈ ds, ∃ cols, d.2.load steps = .ok cols ∧ m d.1 = some cols) ∧ ∀ name, (∀ d ∈ ds, d.1 ≠ name) → m name = m₀ name := by
  intro ds
  induction ds with
  | nil => intro m₀ m h; rw [fromSchema] at h; cases h; simp
  | cons d ds ih =>
    obtain ⟨name, f⟩ := d
    intro m₀ m h
    rw [fromSchema] at h
    cases hl : f.load steps with
    | error e => rw [hl] at h; cases h
    | ok cols =>
      rw [hl] at h
      simp only at h
      split at h
      · cases h
      · rename_i hs
        have hnone : m₀ name = none := by simpa using hs
        obtain ⟨h1, h2, h3, h4⟩ := ih _ _ h
        have hne : ∀ e ∈ ds, e.1 ≠ name := by
          intro e he hc
          have := h2 e he
          rw [if_pos hc] at this; cases this
        refine ⟨?_, ?_, ?_, ?_⟩
        · simp only [List.map_cons, List.nodup_cons, List.mem_map, not_exists, not_and]
          exact ⟨hne, h1⟩
        · intro e he
          rcases List.mem_cons.1 he with rfl | he
          · exact hnone
          · have := h2 e he
            rwa [if_neg (hne e he)] at this
        · intro e he
          rcases List.mem_cons.1 he with rfl | he
          · exact ⟨cols, hl, by rw [h4 _ hne, if_pos rfl]⟩
          · exact h3 e he
        · intro x hx
          rw [h4 x fun e he => hx e (by simp [he]), if_neg]
          rintro rfl
          exact hx (x, f) (by simp) rfl

theorem C85_collection (steps : List Timestep) (ds : List (String × Frame)) {m : String → Option Columns} (h : fromSchema steps ds (fun _ => none) = .ok m) :
    (ds.map (·.1)).Nodup ∧ (∀ d ∈ ds, ∃ cols, d.2.load steps = .ok cols ∧ m d.1 = some cols) ∧ ∀ name, (∀ d ∈ ds, d.1 ≠ name) → m name = none := by
  obtain ⟨h1, -, h3, h4⟩ := fromSchema_ok ds _ _ h
  exact ⟨h1, h3, h4⟩

/-- The numbers of a column without missing values. -/
def Numbers (l : List (Option ℚ)) (vs : List ℚ) : Prop := l = vs.map some

/-- What a reference means: the numbers of the column, of the only column, or all columns. -/
def Means (ts : String → Option Columns) (r : Ref) (data : Data) : Prop :=
  ∃ cols, ts r.series = some cols ∧
    match r.columns with
    | some (.scenario g) => data = .two (cols.map (·.2)) g
    | some (.column c) => ∃ l vs, lookup cols c = some l ∧ Numbers l vs ∧ data = .one vs
    | none => ∃ c l vs, cols = [(c, l)] ∧ Numbers l vs ∧ data = .one vs

theorem toArray_some : ∀ (l : List (Option ℚ)) (vs : List ℚ), toArray l = some vs ↔ Numbers l vs := by
  unfold Numbers
  intro l
  induction l with
  | nil => intro vs; cases vs <;> simp [toArray]
  | cons a l ih =>
    intro vs
    cases a with
    | none => cases vs <;> simp [toArray]
    | some v =>
      cases vs with
      | nil => simp [toArray]
      | cons w vs =>
        simp only [toArray, Option.map_eq_some_iff, List.cons.injEq, List.map_cons, Option.some.injEq]
        constructor
        · rintro ⟨a, h1, rfl, rfl⟩; exact ⟨rfl, (ih _).1 h1⟩
        · rintro ⟨rfl, h⟩; exact ⟨vs, (ih _).2 h, rfl, rfl⟩

/-- The name under which the data of a reference is kept: that of the column or of the scenario group, and that of the series. -/
def refName (ts : String → Option Columns) (r : Ref) : Name :=
  ⟨match r.columns with
    | some (.scenario g) => g
    | some (.column c) => c
    | none => (((ts r.series).getD []).head?.map (·.1)).getD "", some r.series⟩

theorem load_ok {ts : String → Option Columns} {net net' : Net} {r : Ref} {n : Name} :
    r.load ts net = .ok (n, net') ↔ n = refName ts r ∧ ∃ data, Means ts r data ∧ net' = net.addNew n data := by
  obtain ⟨series, columns⟩ := r
  have hcol : ∀ c, loadColumn ts net series c = .ok (n, net') ↔ n = ⟨c, some series⟩ ∧ ∃ data,
      (∃ cols, ts series = some cols ∧ ∃ l vs, lookup cols c = some l ∧ Numbers l vs ∧ data = .one vs) ∧ net' = net.addNew n data := by
    intro c
    unfold loadColumn
    cases hts : ts series with
    | none => simp
    | some cols =>
      simp only [Option.some.injEq, exists_eq_left']
      cases hl : lookup cols c with
      | none => simp
      | some l =>
        simp only [Option.some.injEq]
        cases ha : toArray l with
        | none =>
          simp only [reduceCtorEq, false_iff]
          rintro ⟨-, data, ⟨l', vs, rfl, h, -⟩, -⟩
          rw [(toArray_some _ _).2 h] at ha; cases ha
        | some vs =>
          simp only [Except.ok.injEq, Prod.mk.injEq]
          constructor
          · rintro ⟨rfl, rfl⟩
            exact ⟨rfl, .one vs, ⟨l, vs, rfl, (toArray_some _ _).1 ha, rfl⟩, rfl⟩
          · rintro ⟨rfl, data, ⟨l', vs', rfl, h, rfl⟩, rfl⟩
            rw [(toArray_some _ _).2 h] at ha
            cases ha
            exact ⟨rfl, rfl⟩
  cases columns with
  | some c =>
    cases c with
    | column c => exact hcol c
    | scenario g =>
      simp only [Ref.load, loadAll, refName, Means]
      cases hts : ts series with
      | none => simp
      | some cols =>
        simp only [Except.ok.injEq, Prod.mk.injEq, Option.some.injEq, exists_eq_left']
        constructor
        · rintro ⟨rfl, rfl⟩; exact ⟨rfl, _, rfl, rfl⟩
        · rintro ⟨rfl, data, rfl, rfl⟩; exact ⟨rfl, rfl⟩
  | none =>
    simp only [Ref.load, loadSingle, refName, Means]
    cases hts : ts series with
    | none => simp
    | some cols =>
      simp only [Option.some.injEq, exists_eq_left', Option.getD_some]
      match cols with
      | [] => simp
      | [(c, l)] =>
        simp only [hcol, hts, Option.some.injEq, exists_eq_left', List.head?_cons, Option.map_some, Option.getD_some]
        have hlk : ∀ l', lookup [(c, l)] c = some l' ↔ l = l' := by intro l'; simp [lookup]
        constructor
        · rintro ⟨rfl, data, ⟨l', vs, h1, h2, rfl⟩, rfl⟩
          obtain rfl := (hlk l').1 h1
          exact ⟨rfl, _, ⟨c, l, vs, rfl, h2, rfl⟩, rfl⟩
        · rintro ⟨rfl, data, ⟨c', l', vs, h1, h2, rfl⟩, rfl⟩
          simp only [List.cons.injEq, Prod.mk.injEq, and_true] at h1
          obtain ⟨rfl, rfl⟩ := h1
          exact ⟨rfl, _, ⟨l, vs, (hlk l).2 rfl, h2, rfl⟩, rfl⟩
      | a :: b :: l => simp

theorem find_addNew {net : Net} {n m : Name} {data : Data} :
    (net.addNew n data).find m = if net.contains m then net.find m else if n = m then some data else none := by
  have hc : ∀ x, net.contains x = false → net.find? (fun e => e.1 == x) = none := by
    intro x hx
    rw [List.find?_eq_none]
    intro e he hne
    have : net.contains x = true := by
      unfold Net.contains
      exact List.any_eq_true.2 ⟨e, he, hne⟩
    rw [hx] at this; cases this
  unfold Net.addNew
  by_cases hn : net.contains n
  · rw [if_pos hn]
    by_cases hm : net.contains m
    · rw [if_pos hm]
    · rw [if_neg hm, if_neg (by rintro rfl; exact hm hn)]
      unfold Net.find
      rw [hc m (by simpa using hm)]; rfl
  · rw [if_neg hn]
    unfold Net.find
    rw [List.find?_append]
    by_cases hm : net.contains m
    · rw [if_pos hm]
      obtain ⟨e, he⟩ : ∃ e, net.find? (fun e => e.1 == m) = some e := by
        obtain ⟨e, he, hx⟩ := List.any_eq_true.1 hm
        cases hf : net.find? (fun e => e.1 == m) with
        | none => exact absurd hx (by simpa using List.find?_eq_none.1 hf e he)
        | some e => exact ⟨e, rfl⟩
      rw [he]; rfl
    · rw [if_neg hm, hc m (by simpa using hm)]
      by_cases hnm : n = m <;> simp [hnm]

theorem contains_addNew {net : Net} {n m : Name} {data : Data} : (net.addNew n data).contains m = (net.contains m || decide (n = m)) := by
  unfold Net.addNew
  by_cases hn : net.contains n
  · rw [if_pos hn]
    by_cases hnm : n = m
    · subst hnm; simp [hn]
    · simp [hnm]
  · rw [if_neg hn]
    by_cases hnm : n = m <;> simp [Net.contains, hnm]

/-- All references with this name mean the data found under it. -/
def Agree (ts : String → Option Columns) (net : Net) (rs : List Ref) : Prop :=
  ∀ r ∈ rs, ∀ data, net.find (refName ts r) = some data → Means ts r data

/-- References with the same name mean the same. -/
def Clear (ts : String → Option Columns) (rs : List Ref) : Prop :=
  ∀ r ∈ rs, ∀ r' ∈ rs, refName ts r = refName ts r' → ∀ data, Means ts r data → Means ts r' data

theorem loadRefs_ok {ts : String → Option Columns} : ∀ (rs : List Ref) (net net' : Net) (ns : List Name),
    loadRefs ts net rs = .ok (ns, net') → Agree ts net rs → Clear ts rs →
    ns = rs.map (refName ts) ∧ (∀ n data, net.find n = some data → net'.find n = some data) ∧
    ∀ r ∈ rs, ∃ data, net'.find (refName ts r) = some data ∧ Means ts r data := by
  intro rs
  induction rs with
  | nil => intro net net' ns h _ _; rw [loadRefs] at h; cases h; simp
  | cons r rs ih =>
    intro net net' ns h ha hc
    rw [loadRefs] at h
    cases hl : r.load ts net with
    | error e => rw [hl] at h; cases h
    | ok p =>
      obtain ⟨n, net1⟩ := p
      rw [hl] at h
      simp only at h
      cases hr : loadRefs ts net1 rs with
      | error e => rw [hr] at h; cases h
      | ok p =>
        obtain ⟨ns', net2⟩ := p
        rw [hr] at h
        cases h
        obtain ⟨rfl, data, hmeans, rfl⟩ := load_ok.1 hl
        have hkeep : ∀ n data', net.find n = some data' → (net.addNew (refName ts r) data).find n = some data' := by
          intro n data' hf
          rw [find_addNew, if_pos, hf]
          unfold Net.find at hf
          cases hx : net.find? (fun e => e.1 == n) with
          | none => rw [hx] at hf; cases hf
          | some e => exact List.any_eq_true.2 ⟨e, List.mem_of_find?_eq_some hx, List.find?_some (p := fun e : Name × Data => e.1 == n) hx⟩
        have ha' : Agree ts (net.addNew (refName ts r) data) rs := by
          intro r' hr' data' hf
          rw [find_addNew] at hf
          split at hf
          · exact ha r' (by simp [hr']) data' hf
          · split at hf
            · rename_i _ hn
              cases hf
              exact hc r (by simp) r' (by simp [hr']) hn _ hmeans
            · cases hf
        obtain ⟨h1, h2, h3⟩ := ih _ _ _ hr ha' fun a ha b hb => hc a (by simp [ha]) b (by simp [hb])
        refine ⟨by rw [h1]; rfl, fun n d hf => h2 n d (hkeep n d hf), ?_⟩
        intro r' hr'
        rcases List.mem_cons.1 hr' with rfl | hr'
        · by_cases hcon : net.contains (refName ts r')
          · obtain ⟨e, he, hx⟩ := List.any_eq_true.1 hcon
            cases hf : net.find (refName ts r') with
            | none =>
              unfold Net.find at hf
              rw [Option.map_eq_none_iff] at hf
              exact absurd hx (by simpa using List.find?_eq_none.1 hf e he)
            | some d => exact ⟨d, h2 _ _ (hkeep _ _ hf), ha r' (by simp) d hf⟩
          · exact ⟨data, h2 _ _ (by rw [find_addNew, if_neg hcon, if_pos rfl]), hmeans⟩
        · exact h3 r' hr'

/-- **C85 (references).** If no other parameter has the names of the references, and references with the same name mean the same, then every
reference is given its data. -/
theorem C85_references_partial (ts : String → Option Columns) (net net' : Net) (rs : List Ref) (ns : List Name)
    (h : loadRefs ts net rs = .ok (ns, net')) (hnew : ∀ r ∈ rs, net.contains (refName ts r) = false) (hc : Clear ts rs)
    (i : Nat) (r : Ref) (hr : rs[i]? = some r) :
    ∃ n data, ns[i]? = some n ∧ net'.find n = some data ∧ Means ts r data := by
  obtain ⟨rfl, -, h3⟩ := loadRefs_ok rs net net' ns h (by
    intro r hr data hf
    have := hnew r hr
    unfold Net.find at hf
    cases hx : net.find? (fun e => e.1 == refName ts r) with
    | none => rw [hx] at hf; cases hf
    | some e =>
      have : net.contains (refName ts r) = true :=
        List.any_eq_true.2 ⟨e, List.mem_of_find?_eq_some hx, List.find?_some (p := fun e : Name × Data => e.1 == refName ts r) hx⟩
      rw [hnew r hr] at this; cases this) hc
  obtain ⟨data, h1, h2⟩ := h3 r (List.mem_of_getElem? hr)
  exact ⟨refName ts r, data, by rw [List.getElem?_map, hr]; rfl, h1, h2⟩

/-- **C85 (names, refuted).** A name that is taken is not refused: the reference is given the data of the parameter that has the name. -/
theorem C85_names_refuted (ts : String → Option Columns) (net : Net) (r : Ref) (data other : Data) (hm : Means ts r data)
    (hf : net.find (refName ts r) = some other) :
    ∃ n net', r.load ts net = .ok (n, net') ∧ net'.find n = some other := by
  refine ⟨_, _, load_ok.2 ⟨rfl, data, hm, rfl⟩, ?_⟩
  rw [find_addNew, if_pos, hf]
  unfold Net.find at hf
  cases hx : net.find? (fun e => e.1 == refName ts r) with
  | none => rw [hx] at hf; cases hf
  | some e => exact List.any_eq_true.2 ⟨e, List.mem_of_find?_eq_some hx, List.find?_some (p := fun e : Name × Data => e.1 == refName ts r) hx⟩

/-- **C85 (from file to step).** The value of the array parameter of a column in a step is the value of that row of the aligned column. -/
theorem C85_step (steps : List Timestep) (f : Frame) (hn : f.columns.Nodup) {cols : Columns} (h : f.load steps = .ok cols) (c : String) (j : Nat)
    (hc : f.columns[j]? = some c) (vs : List ℚ) (l : List (Option ℚ)) (hl : lookup cols c = some l) (hv : Numbers l vs) (k : Nat) (v : ℚ) :
    ArrayParam.compute1 vs none k = .ok v ↔ ∃ out r, align steps (f.column j) = .ok out ∧ out[k]? = some r ∧ r.value = some v := by
  obtain ⟨out, ha, hlk⟩ := C85_columns steps f hn h c j hc
  rw [hl] at hlk
  obtain rfl := Option.some.inj hlk
  have hvk : vs[k]? = some v ↔ ∃ r, out[k]? = some r ∧ r.value = some v := by
    have := congrArg (fun x : List (Option ℚ) => x[k]?) hv
    simp only [List.getElem?_map] at this
    cases ho : out[k]? with
    | none =>
      rw [ho] at this
      simp only [Option.map_none] at this
      cases hx : vs[k]? with
      | none => simp
      | some w => rw [hx] at this; simp at this
    | some r =>
      rw [ho] at this
      simp only [Option.map_some] at this
      cases hx : vs[k]? with
      | none => rw [hx] at this; simp at this
      | some w =>
        rw [hx] at this
        simp only [Option.map_some, Option.some.injEq] at this
        simp [this]
  unfold ArrayParam.compute1
  simp only [ArrayParam.timestepIndex]
  constructor
  · intro hcmp
    cases hx : vs[k]? with
    | none => rw [hx] at hcmp; cases hcmp
    | some w =>
      rw [hx] at hcmp
      cases hcmp
      obtain ⟨r, h1, h2⟩ := hvk.1 hx
      exact ⟨out, r, ha, h1, h2⟩
  · rintro ⟨out', r, h1, h2, h3⟩
    rw [ha] at h1
    cases h1
    rw [hvk.2 ⟨r, h2, h3⟩]

end Verif.Timeseries
