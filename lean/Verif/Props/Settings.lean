import Verif.Spec.Settings
import Verif.Props.IpmLp

/-!
# C107: settings of runs
-/

namespace Verif.Settings

open Verif.IpmLp (accepted C77_features ipmFeatures highsFeatures)

/-! ## Dictionaries -/

theorem getItem_some {d : Dict} (hd : (d.map Prod.fst).Nodup) {k : String} {v : PyVal} : getItem d k = some v ↔ (k, v) ∈ d := by
  unfold getItem
  induction d with
  | nil => simp
  | cons p d ih =>
    obtain ⟨a, w⟩ := p
    simp only [List.map_cons, List.nodup_cons] at hd
    rw [List.find?_cons]
    by_cases h : a = k
    · subst h
      simp only [decide_true, Option.map_some, Option.some.injEq, List.mem_cons, Prod.mk.injEq, true_and]
      constructor
      · rintro rfl; exact .inl rfl
      · rintro (h | h)
        · exact h.symm
        · exact absurd (List.mem_map_of_mem (f := Prod.fst) h) hd.1
    · simp only [h, decide_false, List.mem_cons, Prod.mk.injEq]
      rw [ih hd.2]
      constructor
      · exact .inr
      · rintro (⟨e, -⟩ | e)
        · exact absurd e.symm h
        · exact e

theorem getItem_none {d : Dict} {k : String} : getItem d k = none ↔ ∀ v, (k, v) ∉ d := by
  unfold getItem
  rw [Option.map_eq_none_iff, List.find?_eq_none]
  constructor
  · intro h v hv
    exact h _ hv (by simp)
  · rintro h ⟨a, v⟩ hp he
    obtain rfl : a = k := of_decide_eq_true he
    exact h v hp

theorem mem_del {d : Dict} {k : String} {p : String × PyVal} : p ∈ delItem d k ↔ p ∈ d ∧ p.1 ≠ k := by
  unfold delItem
  rw [List.mem_filter, decide_eq_true_eq]

theorem del_nodup {d : Dict} {k : String} (hd : (d.map Prod.fst).Nodup) : ((delItem d k).map Prod.fst).Nodup :=
  (List.Sublist.map _ List.filter_sublist).nodup hd

theorem asUsize_iff (v : PyVal) (n : Nat) : asUsize v = some n ↔ Count v n := by
  cases v with
  | bool b =>
    cases b <;> simp only [asUsize, Option.some.injEq] <;> constructor
    · rintro rfl; exact .no
    · rintro ⟨⟩; rfl
    · rintro rfl; exact .yes
    · rintro ⟨⟩; rfl
  | int i =>
    simp only [asUsize]
    constructor
    · intro h
      split_ifs at h with hi
      obtain rfl := Option.some.inj h
      have : i = ((i.toNat : Nat) : Int) := by omega
      rw [this]
      exact .int _ (by omega)
    · rintro ⟨_, h⟩
      rw [if_pos ⟨by omega, by omega⟩]
      rfl
  | other s => simp only [asUsize, reduceCtorEq, false_iff]; rintro ⟨⟩

theorem asBool_iff (v : PyVal) (b : Bool) : asBool v = some b ↔ v = .bool b := by
  cases v <;> simp [asBool]

/-- An argument taken: gone from the dictionary; what it says. -/
theorem takeThreads_ok {b b' : Settings} {d d' : Dict} (hd : (d.map Prod.fst).Nodup) (h : takeThreads b d = (.ok b', d')) :
    (∀ p, p ∈ d' ↔ p ∈ d ∧ p.1 ≠ "threads") ∧ (d'.map Prod.fst).Nodup ∧
    ((∃ v n, ("threads", v) ∈ d ∧ Count v n ∧ b' = b.withThreads n) ∨ ((∀ v, ("threads", v) ∉ d) ∧ b' = b)) := by
  unfold takeThreads at h
  cases hg : getItem d "threads" with
  | none =>
    simp only [hg, Prod.mk.injEq, Except.ok.injEq] at h
    obtain ⟨rfl, rfl⟩ := h
    have hn := getItem_none.1 hg
    refine ⟨fun p => ⟨fun hp => ⟨hp, ?_⟩, And.left⟩, hd, .inr ⟨hn, rfl⟩⟩
    rintro e
    exact hn p.2 (e ▸ hp)
  | some v =>
    simp only [hg] at h
    cases ha : asUsize v with
    | none => simp [ha] at h
    | some n =>
      simp only [ha, Prod.mk.injEq, Except.ok.injEq] at h
      obtain ⟨rfl, rfl⟩ := h
      exact ⟨fun p => mem_del, del_nodup hd, .inl ⟨v, n, (getItem_some hd).1 hg, (asUsize_iff v n).1 ha, rfl⟩⟩

theorem takeThreads_fit {b : Settings} {d : Dict} (hd : (d.map Prod.fst).Nodup) (h : ∀ v, ("threads", v) ∈ d → ∃ n, Count v n) :
    ∃ b' d', takeThreads b d = (.ok b', d') := by
  unfold takeThreads
  cases hg : getItem d "threads" with
  | none => exact ⟨_, _, rfl⟩
  | some v =>
    obtain ⟨n, hn⟩ := h v ((getItem_some hd).1 hg)
    simp only [(asUsize_iff v n).2 hn]
    exact ⟨_, _, rfl⟩

theorem takeFlag_ok {k : String} {f : Settings → Settings} {b b' : Settings} {d d' : Dict} (hd : (d.map Prod.fst).Nodup)
    (h : takeFlag k f b d = (.ok b', d')) :
    (∀ p, p ∈ d' ↔ p ∈ d ∧ p.1 ≠ k) ∧ (d'.map Prod.fst).Nodup ∧ (∀ v, (k, v) ∈ d → ∃ c, v = .bool c) ∧
    (((k, .bool true) ∈ d ∧ b' = f b) ∨ ((k, .bool true) ∉ d ∧ b' = b)) := by
  unfold takeFlag at h
  cases hg : getItem d k with
  | none =>
    simp only [hg, Prod.mk.injEq, Except.ok.injEq] at h
    obtain ⟨rfl, rfl⟩ := h
    have hn := getItem_none.1 hg
    refine ⟨fun p => ⟨fun hp => ⟨hp, ?_⟩, And.left⟩, hd, fun v hv => absurd hv (hn v), .inr ⟨hn _, rfl⟩⟩
    rintro e
    exact hn p.2 (e ▸ hp)
  | some v =>
    simp only [hg] at h
    cases ha : asBool v with
    | none => simp [ha] at h
    | some c =>
      simp only [ha, Prod.mk.injEq, Except.ok.injEq] at h
      obtain ⟨rfl, rfl⟩ := h
      obtain rfl := (asBool_iff v c).1 ha
      have hm := (getItem_some hd).1 hg
      have huniq : ∀ w, (k, w) ∈ d → w = .bool c := fun w hw => Option.some.inj (((getItem_some hd).2 hw).symm.trans hg)
      refine ⟨fun p => mem_del, del_nodup hd, fun w hw => ⟨c, huniq w hw⟩, ?_⟩
      cases c
      · exact .inr ⟨fun hw => (by cases huniq _ hw), rfl⟩
      · exact .inl ⟨hm, rfl⟩

theorem takeFlag_fit {k : String} {f : Settings → Settings} {b : Settings} {d : Dict} (hd : (d.map Prod.fst).Nodup)
    (h : ∀ v, (k, v) ∈ d → ∃ c, v = .bool c) : ∃ b' d', takeFlag k f b d = (.ok b', d') := by
  unfold takeFlag
  cases hg : getItem d k with
  | none => exact ⟨_, _, rfl⟩
  | some v =>
    obtain ⟨c, rfl⟩ := h v ((getItem_some hd).1 hg)
    exact ⟨_, _, rfl⟩

/-- Settings that a dictionary asks for. -/
structure Means (d : Dict) (st : Settings) : Prop where
  threads : Threads d st.threads
  parallel : st.parallel = true ↔ ("parallel", .bool true) ∈ d
  ignore : st.ignoreFeatures = true ↔ ("ignore_feature_requirements", .bool true) ∈ d

theorem noMore_ok {b b' : Settings} {d d' : Dict} (h : noMore b d = (.ok b', d')) : b' = b ∧ d = [] ∧ d' = [] := by
  unfold noMore at h
  split_ifs at h with he
  · simp only [Prod.mk.injEq, Except.ok.injEq] at h
    obtain ⟨rfl, rfl⟩ := h
    have := List.isEmpty_iff.1 he
    exact ⟨rfl, this, this⟩
  · simp at h

theorem buildDict_ok {s : Solver} {simd : Bool} (hs : simd = true ↔ s = .ipmSimd) {d d' : Dict} {st : Settings} (hd : (d.map Prod.fst).Nodup)
    (h : buildDict simd d = (.ok st, d')) : Fits s d ∧ Means d st ∧ d' = [] := by
  unfold buildDict at h
  rcases h1 : takeThreads .default d with ⟨_ | b1, d1⟩
  · simp [h1] at h
  simp only [h1] at h
  obtain ⟨m1, n1, c1⟩ := takeThreads_ok hd h1
  rcases h2 : takeFlag "parallel" Settings.withParallel b1 d1 with ⟨_ | b2, d2⟩
  · simp [h2] at h
  simp only [h2] at h
  obtain ⟨m2, n2, t2, c2⟩ := takeFlag_ok n1 h2
  have hfin : ∃ b3 d3, (b3 = st ∧ d3 = [] ∧ d' = []) ∧ (∀ p, p ∈ d3 ↔ p ∈ d2 ∧ (simd = true → p.1 ≠ "ignore_feature_requirements")) ∧
      (simd = true → ∀ v, ("ignore_feature_requirements", v) ∈ d2 → ∃ c, v = .bool c) ∧
      ((("ignore_feature_requirements", .bool true) ∈ d2 ∧ b3 = b2.withIgnore) ∨ (("ignore_feature_requirements", .bool true) ∉ d2 ∧ b3 = b2)) := by
    cases simd with
    | true =>
      rcases h3 : takeFlag "ignore_feature_requirements" Settings.withIgnore b2 d2 with ⟨_ | b3, d3⟩
      · simp [h3] at h
      simp only [h3, if_true] at h
      obtain ⟨m3, n3, t3, c3⟩ := takeFlag_ok n2 h3
      obtain ⟨rfl, e, e'⟩ := noMore_ok h
      exact ⟨_, d3, ⟨rfl, e, e'⟩, by simpa using m3, fun _ => t3, c3⟩
    | false =>
      simp only [Bool.false_eq_true, if_false] at h
      obtain ⟨rfl, e, e'⟩ := noMore_ok h
      exact ⟨_, d2, ⟨rfl, e, e'⟩, by simp, by simp, .inr ⟨by simp [e], rfl⟩⟩
  obtain ⟨b3, d3, ⟨rfl, e3, rfl⟩, m3, t3, c3⟩ := hfin
  have hP : ("parallel", PyVal.bool true) ∈ d1 ↔ ("parallel", PyVal.bool true) ∈ d := by rw [m1]; simp
  have hI : ("ignore_feature_requirements", PyVal.bool true) ∈ d2 ↔ ("ignore_feature_requirements", PyVal.bool true) ∈ d := by
    rw [m2, m1]; simp
  refine ⟨?_, ⟨?_, ?_, ?_⟩, rfl⟩
  · rintro ⟨k, v⟩ hp
    by_cases k1 : k = "threads"
    · subst k1
      left
      rcases c1 with ⟨w, n, hw, hc, -⟩ | ⟨hn, -⟩
      · have : w = v := Option.some.inj (((getItem_some hd).2 hw).symm.trans ((getItem_some hd).2 hp))
        exact ⟨rfl, n, this ▸ hc⟩
      · exact absurd hp (hn v)
    have p1 := (m1 _).2 ⟨hp, k1⟩
    by_cases k2 : k = "parallel"
    · subst k2
      exact .inr (.inl ⟨rfl, t2 _ p1⟩)
    have p2 := (m2 _).2 ⟨p1, k2⟩
    by_cases k3 : simd = true ∧ k = "ignore_feature_requirements"
    · obtain ⟨hsd, rfl⟩ := k3
      exact .inr (.inr ⟨hs.1 hsd, rfl, t3 hsd _ p2⟩)
    · have := (m3 _).2 ⟨p2, fun hsd he => k3 ⟨hsd, he⟩⟩
      rw [e3] at this
      exact absurd this List.not_mem_nil
  · have : b3.threads = b1.threads := by
      rcases c2 with ⟨-, rfl⟩ | ⟨-, rfl⟩ <;> rcases c3 with ⟨-, rfl⟩ | ⟨-, rfl⟩ <;> rfl
    rw [this]
    rcases c1 with ⟨w, n, hw, hc, rfl⟩ | ⟨hn, rfl⟩
    · exact .inl ⟨w, hw, hc⟩
    · exact .inr ⟨rfl, hn⟩
  · have : b3.parallel = b2.parallel := by rcases c3 with ⟨-, rfl⟩ | ⟨-, rfl⟩ <;> rfl
    rw [this, ← hP]
    rcases c2 with ⟨hq, e⟩ | ⟨hq, e⟩
    · simp [hq, e, Settings.withParallel]
    · have : b1.parallel = false := by rcases c1 with ⟨_, _, _, _, rfl⟩ | ⟨_, rfl⟩ <;> rfl
      simp [hq, e, this]
  · rw [← hI]
    rcases c3 with ⟨hq, e⟩ | ⟨hq, e⟩
    · simp [hq, e, Settings.withIgnore]
    · have : b2.ignoreFeatures = false := by
        rcases c2 with ⟨-, rfl⟩ | ⟨-, rfl⟩ <;> rcases c1 with ⟨_, _, _, _, rfl⟩ | ⟨_, rfl⟩ <;> rfl
      simp [hq, e, this]

theorem buildDict_fit {s : Solver} {simd : Bool} (hs : simd = true ↔ s = .ipmSimd) {d : Dict} (hd : (d.map Prod.fst).Nodup) (h : Fits s d) :
    ∃ st d', buildDict simd d = (.ok st, d') := by
  unfold buildDict
  obtain ⟨b1, d1, h1⟩ := takeThreads_fit (b := .default) hd fun v hv => by
    rcases h _ hv with ⟨-, h⟩ | ⟨h, -⟩ | ⟨-, h, -⟩
    · exact h
    · simp at h
    · simp at h
  obtain ⟨m1, n1, -⟩ := takeThreads_ok hd h1
  obtain ⟨b2, d2, h2⟩ := takeFlag_fit (k := "parallel") (f := Settings.withParallel) (b := b1) n1 fun v hv => by
    rcases h _ ((m1 _).1 hv).1 with ⟨h, -⟩ | ⟨-, h⟩ | ⟨-, h, -⟩
    · simp at h
    · exact h
    · simp at h
  obtain ⟨m2, n2, -, -⟩ := takeFlag_ok n1 h2
  simp only [h1, h2]
  have rest : ∀ p ∈ d2, s = .ipmSimd ∧ p.1 = "ignore_feature_requirements" ∧ ∃ b, p.2 = .bool b := by
    intro p hp
    obtain ⟨hp1, k2⟩ := (m2 p).1 hp
    obtain ⟨hp0, k1⟩ := (m1 p).1 hp1
    rcases h p hp0 with ⟨h, -⟩ | ⟨h, -⟩ | h
    · exact absurd h k1
    · exact absurd h k2
    · exact h
  have fin : ∀ (b : Settings) (d3 : Dict), (∀ p, p ∉ d3) → noMore b d3 = (.ok b, d3) := by
    intro b d3 hn
    have : d3 = [] := List.eq_nil_iff_forall_not_mem.2 hn
    subst this
    rfl
  cases simd with
  | true =>
    obtain ⟨b3, d3, h3⟩ := takeFlag_fit (k := "ignore_feature_requirements") (f := Settings.withIgnore) (b := b2) n2 fun v hv => (rest _ hv).2.2
    obtain ⟨m3, -, -, -⟩ := takeFlag_ok n2 h3
    simp only [if_true, h3]
    exact ⟨_, _, fin b3 d3 fun p hp => ((m3 p).1 hp).2 (rest p ((m3 p).1 hp).1).2.1⟩
  | false =>
    simp only [Bool.false_eq_true, if_false]
    exact ⟨_, _, fin b2 d2 fun p hp => absurd (hs.2 (rest p hp).1) (by simp)⟩

theorem named_iff (built : Solver → Bool) (name : String) (s : Solver) : solverPy built name = some s ↔ Named name s ∧ built s = true := by
  unfold solverPy
  constructor
  · intro h
    split_ifs at h with h1 h2 h3 h4 h5 h6 <;> obtain rfl := Option.some.inj h
    · exact ⟨h1.1 ▸ .clp, h1.2⟩
    · exact ⟨h2.1 ▸ .cbc, h2.2⟩
    · exact ⟨h3.1 ▸ .highs, h3.2⟩
    · exact ⟨h4.1 ▸ .simd, h4.2⟩
    · exact ⟨h5.1 ▸ .f32, h5.2⟩
    · exact ⟨h6.1 ▸ .f64, h6.2⟩
  · rintro ⟨h, hb⟩
    cases h <;> simp [hb]

theorem accepted_iff (s : Solver) (M : Verif.Solver.Model) : accepted s.features M = true ↔ Takes s M := by
  obtain ⟨h1, h2, h3, h4⟩ := C77_features M
  cases s
  · exact h2
  · exact ⟨fun _ => trivial, fun _ => h4⟩
  · exact h3
  · exact h1
  · exact h1
  · exact h1
  · exact ⟨fun _ => trivial, fun _ => h4⟩

theorem start_iff (s : Solver) (st : Settings) (M : Verif.Solver.Model) (r : Started) :
    start s st M = .ok r ↔ (st.ignoreFeatures = true ∨ Takes s M) ∧ r = ⟨s, workers s st⟩ := by
  unfold start
  rw [← accepted_iff]
  cases st.ignoreFeatures <;> cases accepted s.features M <;> simp [eq_comm]

theorem alone_workers (s : Solver) (st : Settings) (h : st.parallel = false) : Alone s (workers s st) := by
  cases s <;> simp [Alone, workers, Solver.multi, h]

theorem pool_workers (s : Solver) (st : Settings) (h : st.parallel = true) : workers s st = .pool st.threads := by
  cases s <;> simp [workers, Solver.multi, h]

/-! ## The property -/

/-- **C107 (Python).** A run is started exactly if the solver is known and there, the arguments fit it, and it can do what the network asks
or is told to ignore that. -/
theorem C107_python (built : Solver → Bool) (name : String) (d : Dict) (M : Verif.Solver.Model) (hd : (d.map Prod.fst).Nodup)
    (hn : name ≠ "clipm-f32" ∧ name ≠ "clipm-f64") :
    (∃ r d', runPy built name d M = (.ok r, d')) ↔
      ∃ s, Named name s ∧ built s = true ∧ Fits s d ∧ (("ignore_feature_requirements", .bool true) ∈ d ∨ Takes s M) := by
  have hset : ∀ s, Named name s → ∃ simd, (simd = true ↔ s = .ipmSimd) ∧ settingsPy s d = buildDict simd d := by
    intro s hs
    cases hs
    · exact ⟨false, by simp, rfl⟩
    · exact ⟨false, by simp, rfl⟩
    · exact ⟨false, by simp, rfl⟩
    · exact ⟨true, by simp, rfl⟩
    · exact absurd rfl hn.1
    · exact absurd rfl hn.2
  unfold runPy
  constructor
  · rintro ⟨r, d', h⟩
    cases hs : solverPy built name with
    | none => simp [hs] at h
    | some s =>
      obtain ⟨hN, hb⟩ := (named_iff built name s).1 hs
      obtain ⟨simd, hsd, he⟩ := hset s hN
      rcases hp : settingsPy s d with ⟨_ | st, d1⟩
      · simp [hs, hp] at h
      simp only [hs, hp, Prod.mk.injEq] at h
      obtain ⟨hf, hm, -⟩ := buildDict_ok hsd hd (he.symm.trans hp)
      obtain ⟨hk, -⟩ := (start_iff s st M r).1 h.1
      exact ⟨s, hN, hb, hf, hk.imp hm.ignore.1 id⟩
  · rintro ⟨s, hN, hb, hf, hk⟩
    obtain ⟨simd, hsd, he⟩ := hset s hN
    obtain ⟨st, d', hp⟩ := buildDict_fit hsd hd hf
    obtain ⟨-, hm, -⟩ := buildDict_ok hsd hd hp
    simp only [(named_iff built name s).2 ⟨hN, hb⟩, he, hp]
    exact ⟨_, d', by rw [(start_iff s st M _).2 ⟨hk.imp hm.ignore.2 id, rfl⟩]⟩

/-- **C107 (effect, from Python).** A run that is started is one of the solver named, with the number of threads asked for if it is to be
parallel and alone else. The dictionary of the caller has no entries after. -/
theorem C107_python_effect (built : Solver → Bool) (name : String) (d d' : Dict) (M : Verif.Solver.Model) (hd : (d.map Prod.fst).Nodup)
    (hn : name ≠ "clipm-f32" ∧ name ≠ "clipm-f64") (r : Started) (h : runPy built name d M = (.ok r, d')) :
    Named name r.solver ∧ (("parallel", .bool true) ∈ d → ∃ n, Threads d n ∧ r.workers = .pool n) ∧
      (("parallel", .bool true) ∉ d → Alone r.solver r.workers) ∧ d' = [] := by
  unfold runPy at h
  cases hs : solverPy built name with
  | none => simp [hs] at h
  | some s =>
    obtain ⟨hN, hb⟩ := (named_iff built name s).1 hs
    have : ∃ simd, (simd = true ↔ s = .ipmSimd) ∧ settingsPy s d = buildDict simd d := by
      cases hN
      · exact ⟨false, by simp, rfl⟩
      · exact ⟨false, by simp, rfl⟩
      · exact ⟨false, by simp, rfl⟩
      · exact ⟨true, by simp, rfl⟩
      · exact absurd rfl hn.1
      · exact absurd rfl hn.2
    obtain ⟨simd, hsd, he⟩ := this
    rcases hp : settingsPy s d with ⟨_ | st, d1⟩
    · simp [hs, hp] at h
    simp only [hs, hp, Prod.mk.injEq] at h
    obtain ⟨h, rfl⟩ := h
    obtain ⟨hf, hm, rfl⟩ := buildDict_ok hsd hd (he.symm.trans hp)
    obtain ⟨-, rfl⟩ := (start_iff s st M r).1 h
    refine ⟨hN, fun hpar => ⟨st.threads, hm.threads, pool_workers s st (hm.parallel.2 hpar)⟩, fun hpar => alone_workers s st ?_, rfl⟩
    by_contra hc
    exact hpar (hm.parallel.1 (by simpa using hc))

/-- **C107 (command line).** A run is started exactly if the solver can do what the network asks or is told to ignore that, with the
number of threads asked for if more than one. -/
theorem C107_cli (s : Solver) (threads : Nat) (ignore : Bool) (M : Verif.Solver.Model) :
    ((∃ r, runCli s threads ignore M = .ok r) ↔ (ignore = true ∨ Takes s M)) ∧
    ∀ r, runCli s threads ignore M = .ok r → r.solver = s ∧ (1 < threads → r.workers = .pool threads) ∧ (threads ≤ 1 → Alone s r.workers) := by
  unfold runCli
  constructor
  · simp only [start_iff, exists_and_left, exists_eq, and_true]
    cases ignore <;> split_ifs <;> simp_all [Settings.default, Settings.withIgnore, Settings.withParallel, Settings.withThreads]
  · intro r h
    obtain ⟨-, rfl⟩ := (start_iff _ _ _ _).1 h
    refine ⟨rfl, fun ht => ?_, fun ht => alone_workers _ _ ?_⟩
    · rw [pool_workers]
      · cases ignore <;> simp [ht, Settings.default, Settings.withIgnore, Settings.withParallel, Settings.withThreads]
      · cases ignore <;> simp [ht, Settings.default, Settings.withIgnore, Settings.withParallel, Settings.withThreads]
    · cases ignore <;> simp [Nat.not_lt.2 ht, Settings.default, Settings.withIgnore]

/-- **C107 (runs of several networks from the command line, partial).** Each network is checked and run alone, whatever number of threads
is asked for. -/
theorem C107_multi_partial (s : Solver) (threads : Nat) (M : Verif.Solver.Model) :
    ((∃ r, runMultiCli s threads M = .ok r) ↔ Takes s M) ∧ ∀ r, runMultiCli s threads M = .ok r → r.solver = s ∧ Alone s r.workers := by
  unfold runMultiCli
  constructor
  · simp only [start_iff, exists_and_left, exists_eq, and_true]
    simp [Settings.default]
  · intro r h
    obtain ⟨-, rfl⟩ := (start_iff _ _ _ _).1 h
    exact ⟨rfl, alone_workers _ _ rfl⟩

end Verif.Settings
