import Verif.Lemmas.LoadTold
import Verif.Props.Kinds

/-! # The story of a run, and what metrics show at the end of each of its steps -/

namespace Verif.Load

open Verif.Params Verif.Kinds

variable {W : Type}

/-- What is given of a list of metrics at the end of step `t`. -/
structure Heard (A : Args W) (S : Story W) (ps : List (Param W)) (net : Network) (t : Nat) (y : Scene Val Inner W) : Prop where
  world : S.late t = y.world
  one : ∀ ms srcs, List.Forall₂ (Became A ps none) ms srcs → ∀ reads,
    resolveAll net.params.maps ((refsOf srcs).map fun r => ⟨r, .after⟩) = .ok reads → ∀ (i : Nat) (m : SMetric) (v : Val), ms[i]? = some m →
    (fetch (some y.world) srcs (valuesOf y.store reads))[i]? = some (some v) → SNum A S .late t none m v.num
  all : ∀ ms srcs, List.Forall₂ (Became A ps none) ms srcs → ∀ reads,
    resolveAll net.params.maps ((refsOf srcs).map fun r => ⟨r, .after⟩) = .ok reads → ∀ xs,
    collect (fetch (some y.world) srcs (valuesOf y.store reads)) = some xs → List.Forall₂ (SNum A S .late t none) ms (xs.map Val.num)

/-- What is picked from a list. -/
theorem mem_pick {α : Type} {ids : List Nat} {l : List α} {i : Nat} {x : α} : (i, x) ∈ pick ids l ↔ i ∈ ids ∧ l[i]? = some x := by
  simp only [pick, List.mem_filterMap, Option.map_eq_some_iff, Prod.mk.injEq]
  constructor
  · rintro ⟨j, hj, y, hy, rfl, rfl⟩
    exact ⟨hj, hy⟩
  · rintro ⟨hi, hx⟩
    exact ⟨i, hi, x, hx, rfl, rfl⟩

/-- What is known without the network is known with it. -/
theorem collect_fetch (o : Option W) : ∀ {ss : List (Source W)} {vs xs : List Val},
    collect (fetch none ss vs) = some xs → collect (fetch o ss vs) = some xs := by
  intro ss vs
  induction ss, vs using fetch.induct with
  | case1 vs => intro xs h; exact h
  | case2 v ss vs ih =>
    intro xs h
    simp only [fetch, collect, Option.map_eq_some_iff] at h ⊢
    obtain ⟨ys, h1, h2⟩ := h
    exact ⟨ys, ih h1, h2⟩
  | case3 f ss vs ih => intro xs h; simp [fetch, collect] at h
  | case4 ss vs ih => intro xs h; simp [fetch, collect] at h
  | case5 ss vs ih => intro xs h; simp [fetch, collect] at h
  | case6 r ss h1 h2 ih =>
    intro xs h
    cases r <;> simp_all [fetch, collect]
  | case7 r ss v vs h1 h2 ih =>
    intro xs h
    cases r <;> simp only [fetch, collect, Option.map_eq_some_iff] at h ⊢ <;> first
      | (exact absurd rfl h1) | (exact absurd rfl h2) | (obtain ⟨ys, h1, h2⟩ := h; exact ⟨ys, ih h1, h2⟩)

/-- A parameter that gives its value at the start of a step does not wait for the solver. -/
theorem still_of {bs : List Builder} (hn : (bs.map Builder.name).Nodup) {c : Nat} {w : Want} {r : Ref}
    (hr : r = .value c w ∨ r = .valueMulti c w) {sh : Shape} (hg : Gives bs ⟨r, .before⟩ sh) (hsh : sh = .const ∨ sh = .simple) :
    Still bs c ∧ w = .before := by
  obtain ⟨b, -, ht, -, k, hk, ho⟩ := hg
  have hc : b.name = c := by rcases hr with rfl | rfl <;> exact (Option.some.inj ht).symm
  have ho' : Offers.strict .before w k = some sh := by rcases hr with rfl | rfl <;> exact ho
  rw [hc] at hk
  unfold Still
  rw [timing_eq hn hk]
  cases k with
  | const =>
    refine ⟨.inl rfl, ?_⟩
    simp only [Offers.strict] at ho'
    split_ifs at ho' with h
    exact h
  | simple =>
    refine ⟨.inr rfl, ?_⟩
    simp only [Offers.strict] at ho'
    split_ifs at ho' with h
    exact h
  | general b a =>
    exfalso
    simp only [Offers.strict] at ho'
    cases w <;> simp only [Offers.general] at ho' <;> split_ifs at ho' <;> (obtain rfl := Option.some.inj ho'; simp at hsh)

/-- What is shown at the start of a step is shown when it is solved. -/
theorem picked {bs : List Builder} {h : Record W} {stage : Stage} {t : Nat} {phase : Phase} {ids : List Nat} {ss : List (Source W)}
    {os ps : List (Option Val)} {ys zs : List Val} (h1 : List.Forall₂ (Result bs h stage t phase) ss os)
    (h2 : List.Forall₂ (Result bs h stage t phase) ((pick ids ss).map Prod.snd) ps)
    (h3 : collect os = some ys) (h4 : collect ps = some zs) (i : Nat) (q : ℚ) :
    (i, q) ∈ ((pick ids ss).map Prod.fst).zip (zs.map Val.num) ↔ i ∈ ids ∧ (ys.map Val.num)[i]? = some q := by
  rw [collect_iff] at h3 h4
  subst h3 h4
  have hs : ∀ {j : Nat} {s : Source W}, ss[j]? = some s → ∃ v, ys[j]? = some v ∧ Shows bs h stage t phase s v := by
    intro j s hj
    obtain ⟨hj1, rfl⟩ := List.getElem?_eq_some_iff.1 hj
    have hl := h1.length_eq
    have hj2 : j < (ys.map some).length := by omega
    have hj3 : j < ys.length := by simpa using hj2
    refine ⟨ys[j], List.getElem?_eq_getElem hj3, (h1.get hj1 hj2 _).1 ?_⟩
    simp
  have hk : ∀ {j : Nat} {x : Nat × Source W}, (pick ids ss)[j]? = some x → ∃ v, zs[j]? = some v ∧ Shows bs h stage t phase x.2 v ∧
      ys[x.1]? = some v := by
    intro j x hj
    obtain ⟨hj1, hj0⟩ := List.getElem?_eq_some_iff.1 hj
    have hl := h2.length_eq
    simp only [List.length_map] at hl
    have hj2 : j < ((pick ids ss).map Prod.snd).length := by simpa using hj1
    have hj3 : j < (zs.map some).length := by simp; omega
    have hj4 : j < zs.length := by omega
    have hsh : Shows bs h stage t phase x.2 zs[j] := by
      have := (h2.get hj2 hj3 zs[j]).1 (by simp)
      simpa [hj0] using this
    refine ⟨zs[j], List.getElem?_eq_getElem hj4, hsh, ?_⟩
    have hx : (x.1, x.2) ∈ pick ids ss := by rw [← hj0]; exact List.getElem_mem hj1
    obtain ⟨-, hx2⟩ := mem_pick.1 hx
    obtain ⟨hx3, hx4⟩ := List.getElem?_eq_some_iff.1 hx2
    have hl' := h1.length_eq
    have hj5 : x.1 < (ys.map some).length := by omega
    have := (h1.get hx3 hj5 zs[j]).2 (by simpa [hx4] using hsh)
    rw [List.getElem?_eq_getElem (by simpa using hj5)]
    simpa using this
  constructor
  · intro hm
    obtain ⟨j, hj, he⟩ := List.getElem_of_mem hm
    have hj' : j < (pick ids ss).length := by
      have := hj
      simp only [List.length_zip, List.length_map] at this
      omega
    have hz : (pick ids ss)[j]? = some (pick ids ss)[j] := List.getElem?_eq_getElem hj'
    obtain ⟨v, e1, e2, e3⟩ := hk hz
    simp only [List.getElem_zip, List.getElem_map, Prod.mk.injEq] at he
    obtain ⟨e4, e5⟩ := he
    obtain ⟨e6, e7⟩ := List.getElem?_eq_some_iff.1 e1
    rw [e7] at e5
    refine ⟨?_, ?_⟩
    · have : ((pick ids ss)[j].1, (pick ids ss)[j].2) ∈ pick ids ss := List.getElem_mem hj'
      rw [← e4]
      exact (mem_pick.1 this).1
    · rw [List.getElem?_map, ← e4, e3]
      exact congrArg some e5
  · rintro ⟨hi, hq⟩
    rw [List.getElem?_map, Option.map_eq_some_iff] at hq
    obtain ⟨v, hv, rfl⟩ := hq
    obtain ⟨hi1, -⟩ := List.getElem?_eq_some_iff.1 hv
    have hl := h1.length_eq
    have hi2 : i < ss.length := by simpa [hl] using hi1
    have hp : (i, ss[i]) ∈ pick ids ss := mem_pick.2 ⟨hi, List.getElem?_eq_getElem hi2⟩
    obtain ⟨j, hj, he⟩ := List.getElem_of_mem hp
    obtain ⟨v', e1, e2, e3⟩ := hk (j := j) (x := (i, ss[i])) (by rw [List.getElem?_eq_getElem hj, he])
    rw [hv] at e3
    obtain rfl := Option.some.inj e3
    obtain ⟨e4, e5⟩ := List.getElem?_eq_some_iff.1 e1
    refine List.mem_iff_getElem.2 ⟨j, by simp; omega, ?_⟩
    simp [he, e5]

/-- A run has a story. -/
theorem story {A : Args W} {D : Doc} (ha : D.Apart A) (hi : A.Injective) {ids : List Nat} {prepare : Nat → W → List (Nat × ℚ) → Option W}
    {solve : Nat → W → List ℚ → Option W} {w : W} {ss os ls : List (Source W)} {ps : List (Param W)}
    (hl : D.loaded A = .ok ((ss, os, ls), ps)) {net : Network}
    (hb : buildNetwork (ps.length + 1) (builders ps) (refsOf ((pick ids ss).map Prod.snd)) (refsOf ss) = some net) {n : Nat} {x : Scene Val Inner W}
    (hx : runScene (calcs A.env ps (preparing prepare (pick ids ss)) (solving solve ss)) net w (n + 1) = some x) :
    ∃ S : Story W, Told A D ids prepare solve w (n + 1) S ∧ ∀ t ≤ n, ∀ y,
      runScene (calcs A.env ps (preparing prepare (pick ids ss)) (solving solve ss)) net w (t + 1) = some y → Heard A S ps net t y := by
  have hd := loaded_of ha hi hl
  have hwf : ∀ b ∈ builders ps, WellFormed b := by
    intro b hm
    obtain ⟨p, -, rfl⟩ := List.mem_map.1 hm
    exact wellFormed p
  have hready := ready_of hwf (by simp [builders]) hb
  obtain ⟨done, hinv, hperm⟩ := hready.inv
  have hsub : ∀ b ∈ done, b ∈ builders ps := fun b hb => hperm.mem_iff.1 hb
  have hn : (ps.map Param.name).Nodup := by
    have := hready.nodup
    rwa [builders_names] at this
  generalize hk : calcs A.env ps (preparing prepare (pick ids ss)) (solving solve ss) = k at hx
  have hrun : Run A.env ps _ _ (refsOf ((pick ids ss).map Prod.snd)) (refsOf ss) w (n + 1) (erase (historyOf k net w)) := run_of_obeys hn (by
    subst hk
    exact hready.run_to hx)
  have hknown : ∀ p ∈ ps, ∃ k, Calculable (builders ps) p.name p.kind.ty k := by
    intro p hp
    obtain ⟨idx, -, h2⟩ := hinv.calculable hsub done [] (by simp) _ (hperm.mem_iff.2 (mem_builders hp))
    exact ⟨_, h2⟩
  have L : Live A ps (n + 1) (erase (historyOf k net w)) := ⟨⟨hready.nodup, hknown, hrun.params⟩, hd.generated⟩
  have uses : ∀ (l : List (Source W)) (ph : Phase), (refsOf l).map (fun r => (⟨r, ph⟩ : Use)) = usesOf l ph :=
    fun l ph => List.map_map
  refine ⟨storyOf A (builders ps) (erase (historyOf k net w)), ⟨?_, fun d hd' => L.told (hd.declared d hd'), ?_, ?_⟩, ?_⟩
  · intro o name t hs
    rcases hs with hs | hs <;> simp [storyOf, endOf, valueOf, hs]
  · intro t ht
    obtain ⟨us, h1, h2⟩ := hrun.solve t ht
    rw [uses] at h1
    have h3 := fetch_result hready.nodup ss us h1
    unfold solving at h2
    obtain ⟨ys, h4, h5⟩ := Option.bind_eq_some_iff.1 h2
    have h6 := (collect_num h3 (ys.map Val.num)).2 ⟨ys, h4, rfl⟩
    refine ⟨ys.map Val.num, ?_, ?_, h5⟩
    rotate_left
    · obtain ⟨vs, hv1, hv2⟩ := hrun.nodes t ht
      rw [uses] at hv1
      have hold : (erase (historyOf k net w)).world t = (storyOf A (builders ps) (erase (historyOf k net w))).old w t := by
        cases t with
        | zero => exact hrun.world
        | succ t => rfl
      rw [hold] at hv2
      unfold preparing at hv2
      obtain ⟨zs, hz1, hz2⟩ := Option.bind_eq_some_iff.1 hv2
      exact ⟨_, picked h3 (fetch_result hready.nodup _ vs hv1) h4 (collect_fetch _ hz1), hz2⟩
    refine forall_swap hd.uses (fun u s h7 h8 q => ?_) h6
    exact (num_iff L.toRan L.gen h7 (fun ht => h1.gives _ (List.mem_map.2 ⟨s, h8, rfl⟩) ht) (side := .early) (by simp) ht q).1
  · intro i hi o m hu
    obtain ⟨hi1, hi2⟩ := List.getElem?_eq_some_iff.1 hu
    have hi3 : i < ss.length := by rw [← hd.uses.length_eq]; exact hi1
    have hb' := hd.uses.get hi1 hi3
    simp only [List.get_eq_getElem, hi2] at hb'
    have hs := ((C76_builds_iff _ _ _ _ hwf (by simp [builders])).1 ⟨_, hb⟩).2.1 ss[i].ref (List.mem_map.2 ⟨_, List.mem_map.2
      ⟨(i, ss[i]), mem_pick.2 ⟨hi, List.getElem?_eq_getElem hi3⟩, rfl⟩, rfl⟩)
    have load : ∀ (r : PRef) (p : Option String), ss[i] = r.load A p → Still (builders ps) (A.code (named r.name p)) ∧ r.ret.getD .before = .before := by
      intro r p he
      have hr : ss[i].ref = .value (A.code (named r.name p)) (r.ret.getD .before) ∨ ss[i].ref = .valueMulti (A.code (named r.name p)) (r.ret.getD .before) := by
        rw [he]
        unfold PRef.load
        cases r.key with
        | none => exact .inl rfl
        | some _ => exact .inr rfl
      rcases hs with h | ⟨sh, hg, hsh⟩
      · rw [h] at hr; rcases hr with h | h <;> cases h
      · exact still_of hready.nodup hr hg hsh
    cases m with
    | component c =>
      simp only [Became] at hb'
      rcases hb' with ⟨f, -, h⟩ | ⟨node, f, l, -, h, -⟩
      · rw [h] at hs
        rcases hs with h | ⟨sh, ⟨b, -, ht, -⟩, -⟩
        · cases h
        · cases ht
      · rw [h] at hs
        rcases hs with h | ⟨sh, hg, hsh⟩
        · cases h
        · have := (still_of hready.nodup (.inl rfl) hg hsh).2
          cases this
    | param r => exact load r none hb'
    | localParam r =>
      obtain ⟨p, rfl, he⟩ := hb'
      exact load r (some p) he
    | _ => trivial
  · intro t ht y hy
    have hworld : (erase (historyOf k net w)).world (t + 1) = y.world := by simp [erase, historyOf, hy]
    have hv : visible (erase (historyOf k net w)) .after t = some y.world := congrArg some hworld
    have given : ∀ {srcs : List (Source W)} {reads},
        resolveAll net.params.maps ((refsOf srcs).map fun r => ⟨r, .after⟩) = .ok reads →
        Given (builders ps) (erase (historyOf k net w)) ⟨0, 0⟩ .after t (usesOf srcs .after) (valuesOf y.store reads) := by
      intro srcs reads hrs
      obtain ⟨z, hz⟩ := runScene_prefix hy t (by omega)
      have hst := hy
      unfold runScene at hst
      rw [hz] at hst
      have hkn := (hready.step_to hz (hready.run_known hz) hst).1
      have := (hinv.values_iff hsub hready.nodup hkn hrs (fun _ _ s _ => past_after s.stage) _).2 rfl
      rw [uses] at this
      have hz : k.zero = ⟨0, 0⟩ := by rw [← hk]; rfl
      rw [hz] at this
      exact (given_of_value rfl).1 this
    refine ⟨hworld, ?_, ?_⟩
    · intro ms srcs hbec reads hrs i m v hm hv'
      have hg := given hrs
      have h3 := fetch_result hready.nodup srcs _ hg
      rw [hv] at h3
      have h4 : i < ms.length := (List.getElem?_eq_some_iff.1 hm).1
      have h5 : i < srcs.length := by rwa [hbec.length_eq] at h4
      have h6 : Became A ps none m srcs[i] := by
        obtain ⟨-, rfl⟩ := List.getElem?_eq_some_iff.1 hm
        exact hbec.get h4 h5
      have h7 : Result (builders ps) (erase (historyOf k net w)) .after t .after srcs[i] (some v) := by
        obtain ⟨h8, h9⟩ := List.getElem?_eq_some_iff.1 hv'
        rw [← h9]
        exact h3.get h5 h8
      exact (num_iff L.toRan L.gen h6 (fun ht => hg.gives _ (List.mem_map.2 ⟨_, List.getElem_mem h5, rfl⟩) ht) (side := .late)
        (by simp) (by omega) _).1 ⟨v, (h7 v).1 rfl, rfl⟩
    · intro ms srcs hbec reads hrs xs hc
      have hg := given hrs
      have h3 := fetch_result hready.nodup srcs _ hg
      rw [hv] at h3
      have h6 := (collect_num h3 (xs.map Val.num)).2 ⟨xs, hc, rfl⟩
      refine forall_swap hbec (fun m s h7 h8 q => ?_) h6
      exact (num_iff L.toRan L.gen h7 (fun ht => hg.gives _ (List.mem_map.2 ⟨s, h8, rfl⟩) ht) (side := .late) (by simp) (by omega) q).1

end Verif.Load
