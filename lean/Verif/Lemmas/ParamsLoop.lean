import Mathlib.Data.Fintype.Pigeonhole
import Mathlib.Data.Fintype.Sets
import Verif.Lemmas.ParamsBuild

namespace Verif.Params

/-! ## One round and the loop -/

/-- Why the loop stops without success: `done` was built, `rest` remains. -/
def Blocked (c : Collection) (rest : List Builder) (e : BuildError) : Prop :=
  (∃ b ∈ rest, e = .buildFailed b.name ∧ attempt c.maps b = .failed) ∨
  (∃ failed : List (Builder × Name), e = stuck failed ∧ failed.map Prod.fst = rest ∧ rest ≠ [] ∧
    ∀ f ∈ failed, attempt c.maps f.1 = .retry f.2)

theorem pass_spec : ∀ (bs : List Builder) (done : List Builder) (c : Collection), Inv done c →
    (∀ b ∈ bs, WellFormed b) → (done.map Builder.name ++ bs.map Builder.name).Nodup →
    (∃ new c' failed, pass c bs = .ok (c', failed) ∧ Inv (done ++ new) c' ∧
      (new ++ failed.map Prod.fst).Perm bs ∧
      (new = [] → c' = c ∧ failed.map Prod.fst = bs ∧ ∀ f ∈ failed, attempt c.maps f.1 = .retry f.2)) ∨
    (∃ new rest c' e, pass c bs = .error e ∧ Inv (done ++ new) c' ∧ (new ++ rest).Perm bs ∧
      ∃ b ∈ rest, e = .buildFailed b.name ∧ attempt c'.maps b = .failed) := by
  intro bs
  induction bs with
  | nil =>
    intro done c h _ _
    exact Or.inl ⟨[], c, [], rfl, by rwa [List.append_nil], by simp, fun _ => ⟨rfl, rfl, by simp⟩⟩
  | cons b bs ih =>
    intro done c h hw hn
    have hname : c.hasName b.name = false := by
      rw [Bool.eq_false_iff]
      intro hc
      rw [h.hasName] at hc
      rw [List.nodup_append] at hn
      exact hn.2.2 _ hc _ (by simp) rfl
    have hrest : (done.map Builder.name ++ bs.map Builder.name).Nodup := by
      refine List.Nodup.sublist ?_ hn
      exact List.Sublist.append_left (by simp) _
    have hw' : ∀ b ∈ bs, WellFormed b := fun b hb => hw b (List.mem_cons_of_mem _ hb)
    cases ha : attempt c.maps b with
    | failed =>
      refine Or.inr ⟨[], b :: bs, c, .buildFailed b.name, ?_, by rwa [List.append_nil], List.Perm.refl _, ?_⟩
      · simp [pass, hname, ha]
      · exact ⟨b, List.mem_cons_self .., rfl, ha⟩
    | built form rs =>
      have hi := h.push (hw b (List.mem_cons_self ..)) hname ha
      have hn' : ((done ++ [b]).map Builder.name ++ bs.map Builder.name).Nodup := by simpa using hn
      have hp : pass c (b :: bs) = pass (push c b form rs) bs := by simp [pass, hname, ha]
      rcases ih (done ++ [b]) _ hi hw' hn' with ⟨new, c', failed, h1, h2, h3, -⟩ |
        ⟨new, rest, c', e, h1, h2, h3, h4⟩
      · refine Or.inl ⟨b :: new, c', failed, hp.trans h1, by simpa using h2, ?_, by simp⟩
        simpa using h3
      · refine Or.inr ⟨b :: new, rest, c', e, hp.trans h1, by simpa using h2, ?_, h4⟩
        simpa using h3
    | retry m =>
      rcases ih done c h hw' hrest with ⟨new, c', failed, h1, h2, h3, h4⟩ |
        ⟨new, rest, c', e, h1, h2, h3, b', hb', h4⟩
      · refine Or.inl ⟨new, c', (b, m) :: failed, ?_, h2, ?_, ?_⟩
        · simp [pass, hname, ha, h1]
        · exact List.perm_middle.trans (h3.cons _)
        · intro he
          obtain ⟨h5, h6, h7⟩ := h4 he
          refine ⟨h5, by simp [h6], ?_⟩
          intro f hf
          rcases List.mem_cons.1 hf with rfl | hf
          · exact ha
          · exact h7 f hf
      · refine Or.inr ⟨new, b :: rest, c', e, ?_, h2, ?_, b', List.mem_cons_of_mem _ hb', h4⟩
        · simp [pass, hname, ha, h1]
        · exact List.perm_middle.trans (h3.cons _)

theorem loop_spec : ∀ (fuel : Nat) (bs done : List Builder) (c : Collection), Inv done c →
    (∀ b ∈ bs, WellFormed b) → (done.map Builder.name ++ bs.map Builder.name).Nodup →
    bs.length < fuel →
    (∃ done' c', loop fuel c bs = some (.ok c') ∧ Inv done' c' ∧ done'.Perm (done ++ bs)) ∨
    (∃ done' rest c' e, loop fuel c bs = some (.error e) ∧ Inv done' c' ∧
      (done' ++ rest).Perm (done ++ bs) ∧ Blocked c' rest e) := by
  intro fuel
  induction fuel with
  | zero => intro bs done c _ _ _ h; omega
  | succ fuel ih =>
    intro bs done c h hw hn hl
    unfold loop
    by_cases hb : bs.isEmpty = true
    · rw [if_pos hb]
      rw [List.isEmpty_iff] at hb
      subst hb
      exact Or.inl ⟨done, c, rfl, h, by simp⟩
    rw [if_neg hb]
    rcases pass_spec bs done c h hw hn with ⟨new, c', failed, h1, h2, h3, h4⟩ |
      ⟨new, rest, c', e, h1, h2, h3, b, hb', h4⟩
    · rw [h1]
      simp only
      have hlen := h3.length_eq
      rw [List.length_append, List.length_map] at hlen
      by_cases he : bs.length = failed.length
      · rw [if_pos he]
        have hnil : new = [] := List.eq_nil_of_length_eq_zero (by omega)
        obtain ⟨rfl, h6, h7⟩ := h4 hnil
        refine Or.inr ⟨done, bs, c', _, rfl, h, List.Perm.refl _, Or.inr ⟨failed, rfl, h6, ?_, h7⟩⟩
        rintro rfl
        exact hb rfl
      · rw [if_neg he]
        have hperm : (done ++ new ++ failed.map Prod.fst).Perm (done ++ bs) := by
          rw [List.append_assoc]; exact h3.append_left done
        have hn' : ((done ++ new).map Builder.name ++ (failed.map Prod.fst).map Builder.name).Nodup := by
          rw [← List.map_append]
          have := (hperm.map Builder.name).nodup_iff
          rw [List.map_append (l₁ := done)] at this
          exact this.2 hn
        have hw' : ∀ b ∈ failed.map Prod.fst, WellFormed b := by
          intro b hb
          exact hw b (h3.mem_iff.1 (List.mem_append_right _ hb))
        rcases ih (failed.map Prod.fst) (done ++ new) c' h2 hw' hn' (by rw [List.length_map]; omega) with
          ⟨d, c'', h5, h6, h7⟩ | ⟨d, rest, c'', e, h5, h6, h7, h8⟩
        · exact Or.inl ⟨d, c'', h5, h6, h7.trans hperm⟩
        · exact Or.inr ⟨d, rest, c'', e, h5, h6, h7.trans hperm, h8⟩
    · rw [h1]
      refine Or.inr ⟨done ++ new, rest, c', e, rfl, h2, ?_, Or.inl ⟨b, hb', h4⟩⟩
      rw [List.append_assoc]; exact h3.append_left done

/-- The outcome of a whole build. -/
theorem build_spec {bs : List Builder} {fuel : Nat} (hw : ∀ b ∈ bs, WellFormed b)
    (hf : bs.length < fuel) :
    (∃ n, build fuel bs = some (.error (.duplicate n)) ∧ ¬ (bs.map Builder.name).Nodup ∧
      2 ≤ (bs.map Builder.name).count n) ∨
    (bs.map Builder.name).Nodup ∧
      ((∃ done c, build fuel bs = some (.ok c) ∧ Inv done c ∧ done.Perm bs) ∨
      (∃ done rest c e, build fuel bs = some (.error e) ∧ Inv done c ∧ (done ++ rest).Perm bs ∧
        Blocked c rest e)) := by
  have hp := arrange_perm bs
  have hnd := (hp.map Builder.name).nodup_iff
  cases hd : firstDuplicate [] ((arrange bs).map Builder.name) with
  | some n =>
    have hb : build fuel bs = some (.error (.duplicate n)) := by unfold build; simp only [hd]
    have h2 := firstDuplicate_some _ _ _ List.nodup_nil hd
    rw [List.nil_append, (hp.map Builder.name).count_eq] at h2
    refine Or.inl ⟨n, hb, ?_, h2⟩
    intro h
    have := List.nodup_iff_count_le_one.1 h n
    omega
  | none =>
    have hb : build fuel bs = loop fuel Collection.empty (arrange bs) := by unfold build; simp only [hd]
    have hn : ((arrange bs).map Builder.name).Nodup := (firstDuplicate_none _ _ hd).1
    rw [hb]
    refine Or.inr ⟨hnd.1 hn, ?_⟩
    have hw' : ∀ b ∈ arrange bs, WellFormed b := fun b hb => hw b (hp.mem_iff.1 hb)
    rcases loop_spec fuel (arrange bs) [] Collection.empty Inv.empty hw' (by simpa using hn)
      (by rw [hp.length_eq]; exact hf) with ⟨d, c, h1, h2, h3⟩ | ⟨d, r, c, e, h1, h2, h3, h4⟩
    · exact Or.inl ⟨d, c, h1, h2, (by simpa using h3 : d.Perm (arrange bs)).trans hp⟩
    · exact Or.inr ⟨d, r, c, e, h1, h2, (by simpa using h3 : (d ++ r).Perm (arrange bs)).trans hp, h4⟩

/-! ## When a reference resolves -/

theorem kindGeneral_offers {n t b a w p} :
    (∀ sh, Offers.general p w b.isSome a.isSome = some sh →
      ∃ m, resolveGeneral n t b a w p = .ok m ∧ m.shape = sh) ∧
    (Offers.general p w b.isSome a.isSome = none →
      resolveGeneral n t b a w p = .error (.wrongPhase n w p)) := by
  unfold Offers.general resolveGeneral
  cases w <;> cases p <;> cases a <;> cases b <;> simp [Metric.shape]

theorem strict_offers {n t idx w p} :
    (∀ sh, Offers.strict p w (Index.kind idx) = some sh →
      ∃ m, resolveStrict n t idx w p = .ok m ∧ m.shape = sh) ∧
    (Offers.strict p w (Index.kind idx) = none →
      resolveStrict n t idx w p = .error (.wrongPhase n w p)) := by
  cases idx with
  | const i => cases w <;> simp [Offers.strict, Index.kind, resolveStrict, Metric.shape]
  | simple i => cases w <;> simp [Offers.strict, Index.kind, resolveStrict, Metric.shape]
  | general b a => exact kindGeneral_offers

theorem lenient_offers {n t idx w p} :
    (∀ sh, Offers.lenient p w (Index.kind idx) = some sh →
      ∃ m, resolveLenient n t idx w p = .ok m ∧ m.shape = sh) ∧
    (Offers.lenient p w (Index.kind idx) = none →
      resolveLenient n t idx w p = .error (.wrongPhase n w p)) := by
  cases idx with
  | const i => simp [Offers.lenient, Index.kind, resolveLenient, Metric.shape]
  | simple i => simp [Offers.lenient, Index.kind, resolveLenient, Metric.shape]
  | general b a => exact kindGeneral_offers

/-- The decision table: a reference to a registered parameter gives what the parameter offers. -/
theorem resolve_offers {maps : Maps} (hn : (maps.map Prod.fst).Nodup) {p : Phase} {r : Ref} {n : Name}
    {t : Ty} {idx : Index} (ht : r.target = some n) (hu : r.Usable t)
    (hl : lookup maps t n = some idx) :
    (∀ sh, Offers p r idx.kind = some sh → ∃ m, resolve maps p r = .ok m ∧ m.shape = sh) ∧
    (Offers p r idx.kind = none → ∃ w, r.want = some w ∧
      resolve maps p r = .error (.wrongPhase n w p)) := by
  cases r with
  | literal => cases ht
  | component => cases ht
  | value m w =>
    cases ht
    have hr : resolve maps p (.value n w) = resolveStrict n t idx w p := by
      rcases hu with rfl | rfl
      · simp only [resolve, hl]
      · have : lookup maps .f64 n = none := by
          cases h : lookup maps .f64 n with
          | none => rfl
          | some i =>
            have := List.inj_on_of_nodup_map hn (lookup_mem h) (lookup_mem hl) rfl
            cases this
        simp only [resolve, hl, this]
    rw [hr]
    exact ⟨strict_offers.1, fun h => ⟨w, rfl, strict_offers.2 h⟩⟩
  | valueMulti m w =>
    cases ht; cases hu
    have hr : resolve maps p (.valueMulti n w) = resolveStrict n .multi idx w p := by
      simp only [resolve, hl]
    rw [hr]
    exact ⟨strict_offers.1, fun h => ⟨w, rfl, strict_offers.2 h⟩⟩
  | index m w =>
    cases ht; cases hu
    have hr : resolve maps p (.index n w) = resolveLenient n .u64 idx w p := by
      simp only [resolve, hl]
    rw [hr]
    exact ⟨lenient_offers.1, fun h => ⟨w, rfl, lenient_offers.2 h⟩⟩
  | indexMulti m w =>
    cases ht; cases hu
    have hr : resolve maps p (.indexMulti n w) = resolveLenient n .multi idx w p := by
      simp only [resolve, hl]
    rw [hr]
    exact ⟨lenient_offers.1, fun h => ⟨w, rfl, lenient_offers.2 h⟩⟩

/-- References to things other than parameters always resolve. -/
theorem resolve_plain {maps : Maps} {p : Phase} {r : Ref} (ht : r.target = none) (k : Kind) :
    ∃ m, resolve maps p r = .ok m ∧ Offers p r k = some m.shape ∧
      ∀ maps', resolve maps' p r = .ok m := by
  cases r with
  | literal => exact ⟨.literal, rfl, rfl, fun _ => rfl⟩
  | component => exact ⟨.component, rfl, rfl, fun _ => rfl⟩
  | value n w => cases ht
  | valueMulti n w => cases ht
  | index n w => cases ht
  | indexMulti n w => cases ht

/-! ## What can be calculated -/

theorem name_inj {bs : List Builder} (hn : (bs.map Builder.name).Nodup) {b b' : Builder}
    (h : b ∈ bs) (h' : b' ∈ bs) (he : b.name = b'.name) : b = b' :=
  List.inj_on_of_nodup_map hn h h' he

theorem Offers_none_congr {p : Phase} {r : Ref} (ht : r.target = none) (k k' : Kind) :
    Offers p r k = Offers p r k' := by
  cases r with
  | literal => rfl
  | component => rfl
  | value n w => cases ht
  | valueMulti n w => cases ht
  | index n w => cases ht
  | indexMulti n w => cases ht

theorem Calculable.unique {bs : List Builder} (hn : (bs.map Builder.name).Nodup) {n : Name} {t t' : Ty}
    {k k' : Kind} (h : Calculable bs n t k) (h' : Calculable bs n t' k') : t = t' ∧ k = k' := by
  induction h generalizing t' k' with
  | intro b mem ty kind shape usable refs offers accepts ih =>
    generalize hne : b.name = nm at h'
    cases h' with
    | intro b₂ mem₂ ty₂ kind₂ shape₂ usable₂ refs₂ offers₂ accepts₂ =>
      have := name_inj hn mem mem₂ hne
      subst this
      refine ⟨rfl, ?_⟩
      have : b.uses.map shape = b.uses.map shape₂ := by
        refine List.map_congr_left ?_
        intro u hu
        have h1 := offers u hu
        have h2 := offers₂ u hu
        cases ht : u.ref.target with
        | none =>
          rw [Offers_none_congr ht _ (kind₂ u), h2] at h1
          exact (Option.some.inj h1).symm
        | some m =>
          rw [(ih u hu m ht (refs₂ u hu m ht)).2, h2] at h1
          exact (Option.some.inj h1).symm
      rw [this]

/-- All references resolve to shapes given by `shape`. -/
theorem resolveAll_of {maps : Maps} (shape : Use → Shape) : ∀ {us : List Use},
    (∀ u ∈ us, ∃ m, resolve maps u.phase u.ref = .ok m ∧ m.shape = shape u) →
    ∃ rs, resolveAll maps us = .ok rs ∧ rs.map Read.shape = us.map shape := by
  intro us
  induction us with
  | nil => intro _; exact ⟨[], rfl, rfl⟩
  | cons u us ih =>
    intro h
    obtain ⟨m, h1, h2⟩ := h u (List.mem_cons_self ..)
    obtain ⟨rs, h3, h4⟩ := ih (fun u hu => h u (List.mem_cons_of_mem _ hu))
    refine ⟨⟨u, m⟩ :: rs, by simp [resolveAll, h1, h3], ?_⟩
    simp only [List.map_cons, h4, Read.shape, h2]

theorem Inv.lookup_of {done : List Builder} {c : Collection} (h : Inv done c) {b : Builder}
    (hb : b ∈ done) : ∃ idx, lookup c.maps b.ty b.name = some idx := by
  have : (b.name, b.ty) ∈ c.maps.map (fun e => (e.1, e.2.1)) := by
    rw [h.maps]; exact List.mem_map_of_mem (f := fun b : Builder => (b.name, b.ty)) hb
  rw [List.mem_map] at this
  obtain ⟨⟨n, t, idx⟩, he, h1⟩ := this
  cases h1
  exact ⟨idx, lookup_of_mem (by rw [h.names]; exact h.nodup) he⟩

theorem Inv.of_lookup {done : List Builder} {c : Collection} (h : Inv done c) {n : Name} {t : Ty}
    {idx : Index} (hl : lookup c.maps t n = some idx) : ∃ b ∈ done, b.name = n ∧ b.ty = t := by
  have : (n, t) ∈ c.maps.map (fun e => (e.1, e.2.1)) :=
    List.mem_map_of_mem (f := fun e => (e.1, e.2.1)) (lookup_mem hl)
  rw [h.maps, List.mem_map] at this
  obtain ⟨b, hb, h1⟩ := this
  cases h1
  exact ⟨b, hb, rfl, rfl⟩

/-- What has been built can be calculated, and is registered with its kind. -/
theorem Inv.calculable {done : List Builder} {c : Collection} (h : Inv done c) {bs : List Builder}
    (hsub : ∀ b ∈ done, b ∈ bs) : ∀ pre post, done = pre ++ post → ∀ b ∈ pre,
      ∃ idx, lookup c.maps b.ty b.name = some idx ∧ Calculable bs b.name b.ty idx.kind := by
  intro pre
  induction pre using List.reverseRecOn with
  | nil => intro _ _ b hb; cases hb
  | append_singleton pre b ih =>
    intro post he b' hb'
    rw [List.mem_append, List.mem_singleton] at hb'
    have he' : done = pre ++ ([b] ++ post) := by rw [he, List.append_assoc]
    have hpre := ih _ he'
    rcases hb' with hb' | rfl
    · exact hpre b' hb'
    have hmem : b' ∈ done := by rw [he']; simp
    obtain ⟨idx, hidx⟩ := h.lookup_of hmem
    refine ⟨idx, hidx, ?_⟩
    obtain ⟨form, rs, h1, h2, -⟩ := h.fix b' hmem
    rw [hidx, Option.map_some, Option.some_inj] at h2
    obtain ⟨h3, h4, h5⟩ := attempt_built h1
    obtain ⟨h6, h7⟩ := resolveAll_ok h3
    have hnd : (c.maps.map Prod.fst).Nodup := by rw [h.names]; exact h.nodup
    -- the type and kind of each reference
    have each : ∀ u ∈ b'.uses, ∃ (tk : Ty × Kind), (∀ m, u.ref.target = some m → u.ref.Usable tk.1 ∧
        Calculable bs m tk.1 tk.2) ∧ ∃ m, resolve c.maps u.phase u.ref = .ok m ∧
        Offers u.phase u.ref tk.2 = some m.shape := by
      intro u hu
      have hr : ∃ m, resolve c.maps u.phase u.ref = .ok m := by
        rw [← h6, List.mem_map] at hu
        obtain ⟨r, hr, rfl⟩ := hu
        exact ⟨_, h7 r hr⟩
      cases ht : u.ref.target with
      | none =>
        obtain ⟨m, h8, h9, -⟩ := resolve_plain (maps := c.maps) (p := u.phase) ht .const
        exact ⟨(.f64, .const), by simp, m, h8, h9⟩
      | some m =>
        obtain ⟨b₀, hb₀, h8, h9⟩ := h.dep pre b' post (by simpa using he') u hu (by rw [ht]; simp)
        rw [ht, Option.some_inj] at h8
        subst h8
        obtain ⟨i₀, h10, h11⟩ := hpre b₀ hb₀
        refine ⟨(b₀.ty, i₀.kind), ?_, ?_⟩
        · intro m hm; cases hm; exact ⟨h9, h11⟩
        · obtain ⟨m, hm⟩ := hr
          refine ⟨m, hm, ?_⟩
          have ho := resolve_offers hnd (p := u.phase) ht h9 h10
          cases hoff : Offers u.phase u.ref i₀.kind with
          | none =>
            obtain ⟨w, -, h12⟩ := ho.2 hoff
            rw [h12] at hm; cases hm
          | some sh =>
            obtain ⟨m', h12, h13⟩ := ho.1 sh hoff
            rw [h12] at hm; cases hm
            rw [h13]
    have : ∀ u : Use, ∃ (tk : Ty × Kind × Shape), u ∈ b'.uses →
        (∀ m, u.ref.target = some m → u.ref.Usable tk.1 ∧ Calculable bs m tk.1 tk.2.1) ∧
        Offers u.phase u.ref tk.2.1 = some tk.2.2 ∧
        ∃ m, resolve c.maps u.phase u.ref = .ok m ∧ m.shape = tk.2.2 := by
      intro u
      by_cases hu : u ∈ b'.uses
      · obtain ⟨tk, h8, m, h9, h10⟩ := each u hu
        exact ⟨(tk.1, tk.2, m.shape), fun _ => ⟨h8, h10, m, h9, rfl⟩⟩
      · exact ⟨(.f64, .const, .const), fun h => absurd h hu⟩
    obtain ⟨f, hf⟩ := Classical.axiomOfChoice this
    have hshape : rs.map Read.shape = b'.uses.map (fun u => (f u).2.2) := by
      rw [← h6, List.map_map]
      refine List.map_congr_left ?_
      intro r hr
      have hu : r.use ∈ b'.uses := by rw [← h6]; exact List.mem_map_of_mem hr
      obtain ⟨-, -, m, h8, h9⟩ := hf r.use hu
      rw [h7 r hr] at h8
      cases h8
      exact h9
    rw [h2, h4, hshape]
    refine Calculable.intro b' (hsub b' hmem) (fun u => (f u).1) (fun u => (f u).2.1)
      (fun u => (f u).2.2) ?_ ?_ ?_ ?_
    · intro u hu m hm; exact ((hf u hu).1 m hm).1
    · intro u hu m hm; exact ((hf u hu).1 m hm).2
    · intro u hu; exact (hf u hu).2.1
    · rw [← hshape]; exact h5

/-- A builder whose parameter can be calculated does not fail. -/
theorem Inv.not_failed {done : List Builder} {c : Collection} (h : Inv done c) {bs : List Builder}
    (hsub : ∀ b ∈ done, b ∈ bs) (hn : (bs.map Builder.name).Nodup) {b : Builder} (hb : b ∈ bs)
    {t : Ty} {k : Kind} (hc : Calculable bs b.name t k) : attempt c.maps b ≠ .failed := by
  intro hfail
  generalize hne : b.name = nm at hc
  cases hc with
  | intro b₂ mem ty kind shape usable refs offers accepts =>
    have := name_inj hn hb mem hne
    subst this
    have hnd : (c.maps.map Prod.fst).Nodup := by rw [h.names]; exact h.nodup
    have each : ∀ u ∈ b.uses, (∃ m, resolve c.maps u.phase u.ref = .ok m ∧ m.shape = shape u) ∨
        ∃ n, resolve c.maps u.phase u.ref = .error (.notFound n) := by
      intro u hu
      cases ht : u.ref.target with
      | none =>
        obtain ⟨m, h1, h2, -⟩ := resolve_plain (maps := c.maps) (p := u.phase) ht (kind u)
        rw [offers u hu] at h2
        exact Or.inl ⟨m, h1, (Option.some.inj h2).symm⟩
      | some m =>
        have h3 := refs u hu m ht
        have h4 := usable u hu m ht
        cases hl : lookup c.maps (ty u) m with
        | some idx =>
          obtain ⟨b₀, hb₀, rfl, h5⟩ := h.of_lookup hl
          obtain ⟨i₀, h6, h7⟩ := h.calculable hsub done [] (by simp) b₀ hb₀
          have h8 := h3.unique hn h7
          rw [h5, hl] at h6
          cases h6
          have := offers u hu
          rw [h8.2] at this
          exact Or.inl ((resolve_offers hnd ht h4 hl).1 _ this)
        | none =>
          refine Or.inr ⟨m, ?_⟩
          have none_all : ∀ t, lookup c.maps t m = none := by
            intro t
            cases hl' : lookup c.maps t m with
            | none => rfl
            | some idx =>
              obtain ⟨b₀, hb₀, rfl, h5⟩ := h.of_lookup hl'
              obtain ⟨i₀, h6, h7⟩ := h.calculable hsub done [] (by simp) b₀ hb₀
              rw [(h3.unique hn h7).1, h6] at hl
              cases hl
          cases hr : u.ref with
          | literal => rw [hr] at ht; cases ht
          | component => rw [hr] at ht; cases ht
          | value n w => rw [hr] at ht; cases ht; simp only [resolve, none_all]
          | valueMulti n w => rw [hr] at ht; cases ht; simp only [resolve, none_all]
          | index n w => rw [hr] at ht; cases ht; simp only [resolve, none_all]
          | indexMulti n w => rw [hr] at ht; cases ht; simp only [resolve, none_all]
    unfold attempt at hfail
    cases hr : resolveAll c.maps b.uses with
    | error e =>
      rw [hr] at hfail
      cases e with
      | notFound n => cases hfail
      | wrongPhase n w p =>
        obtain ⟨u, hu, h1⟩ := resolveAll_error hr
        rcases each u hu with ⟨m, h2, -⟩ | ⟨m, h2⟩ <;> (rw [h1] at h2; cases h2)
    | ok rs =>
      rw [hr] at hfail
      obtain ⟨h1, h2⟩ := resolveAll_ok hr
      have hshape : rs.map Read.shape = b.uses.map shape := by
        rw [← h1, List.map_map]
        refine List.map_congr_left ?_
        intro r hr'
        have hu : r.use ∈ b.uses := by rw [← h1]; exact List.mem_map_of_mem hr'
        rcases each r.use hu with ⟨m, h3, h4⟩ | ⟨m, h3⟩
        · rw [h2 r hr'] at h3; cases h3; exact h4
        · rw [h2 r hr'] at h3; cases h3
      simp only [hshape, accepts, if_true] at hfail
      cases hfail

/-- A builder that has to wait refers to a parameter that is not built, and does not exist
at all unless it is waiting too. -/
theorem Inv.waits {done rest : List Builder} {c : Collection} (h : Inv done c) {bs : List Builder}
    (hp : (done ++ rest).Perm bs) {b : Builder} {m : Name} (ha : attempt c.maps b = .retry m) :
    ∃ u ∈ b.uses, u.ref.target = some m ∧
      (Exists bs u.ref → ∃ b' ∈ rest, b'.name = m ∧ u.ref.Usable b'.ty) := by
  obtain ⟨u, hu, h1, h2⟩ := attempt_retry ha
  refine ⟨u, hu, h1, ?_⟩
  rintro ⟨b', hb', h3, h4⟩
  rw [h1, Option.some_inj] at h3
  refine ⟨b', ?_, h3.symm, h4⟩
  rcases List.mem_append.1 (hp.mem_iff.2 hb') with hd | hr
  · obtain ⟨idx, hidx⟩ := h.lookup_of hd
    rw [← h3, h2 _ h4] at hidx
    cases hidx
  · exact hr

theorem Calculable.mem {bs : List Builder} {n : Name} {t : Ty} {k : Kind} (h : Calculable bs n t k) :
    ∃ b ∈ bs, b.name = n ∧ b.ty = t := by
  cases h with
  | intro b mem => exact ⟨b, mem, rfl, rfl⟩

/-- Nothing that can be calculated is among the waiting ones. -/
theorem Inv.not_waiting {done rest : List Builder} {c : Collection} (h : Inv done c)
    {bs : List Builder} (hp : (done ++ rest).Perm bs) (hn : (bs.map Builder.name).Nodup)
    (hw : ∀ b ∈ rest, ∃ m, attempt c.maps b = .retry m) {n : Name} {t : Ty} {k : Kind}
    (hc : Calculable bs n t k) : ∀ b ∈ rest, b.name ≠ n := by
  induction hc with
  | intro b mem ty kind shape usable refs offers accepts ih =>
    intro b₂ hb₂ he
    have := name_inj hn (hp.mem_iff.1 (List.mem_append_right _ hb₂)) mem he
    subst this
    obtain ⟨m, ha⟩ := hw _ hb₂
    obtain ⟨u, hu, h1, h2⟩ := h.waits hp ha
    obtain ⟨b', hb', h3, h4⟩ := (refs u hu m h1).mem
    obtain ⟨b'', hb'', h5, -⟩ := h2 ⟨b', hb', by rw [h1, h3], by rw [h4]; exact usable u hu m h1⟩
    exact ih u hu m h1 b'' hb'' h5

/-- A blocked build leaves something that cannot be calculated. -/
theorem Inv.blocked {done rest : List Builder} {c : Collection} (h : Inv done c) {bs : List Builder}
    (hp : (done ++ rest).Perm bs) (hn : (bs.map Builder.name).Nodup) {e : BuildError}
    (hb : Blocked c rest e) : ∃ b ∈ rest, ∀ t k, ¬ Calculable bs b.name t k := by
  have hsub : ∀ b ∈ done, b ∈ bs := fun b hb => hp.mem_iff.1 (List.mem_append_left _ hb)
  rcases hb with ⟨b, hb, -, hf⟩ | ⟨failed, -, h1, h2, h3⟩
  · refine ⟨b, hb, ?_⟩
    intro t k hc
    exact h.not_failed hsub hn (hp.mem_iff.1 (List.mem_append_right _ hb)) hc hf
  · obtain ⟨b, hb⟩ := List.exists_mem_of_ne_nil rest h2
    refine ⟨b, hb, ?_⟩
    intro t k hc
    refine h.not_waiting hp hn ?_ hc b hb rfl
    intro b' hb'
    rw [← h1, List.mem_map] at hb'
    obtain ⟨f, hf, rfl⟩ := hb'
    exact ⟨f.2, h3 f hf⟩

/-! ## Cycles -/

/-- In a finite set in which everything has a successor there is a cycle. -/
theorem exists_cycle (R : Name → Name → Prop) (names : List Name) (hne : names ≠ [])
    (h : ∀ n ∈ names, ∃ m ∈ names, R n m) :
    ∃ n ∈ names, Relation.TransGen (fun a b => a ∈ names ∧ b ∈ names ∧ R a b) n n := by
  obtain ⟨n₀, hn₀⟩ := List.exists_mem_of_ne_nil names hne
  have step : ∀ n : {n // n ∈ names}, ∃ m : {m // m ∈ names}, R n.1 m.1 := by
    rintro ⟨n, hn⟩
    obtain ⟨m, hm, hr⟩ := h n hn
    exact ⟨⟨m, hm⟩, hr⟩
  obtain ⟨f, hf⟩ := Classical.axiomOfChoice step
  let walk : Nat → {n // n ∈ names} := fun i => Nat.rec ⟨n₀, hn₀⟩ (fun _ x => f x) i
  have hwalk : ∀ i, walk (i + 1) = f (walk i) := fun _ => rfl
  have hpath : ∀ i d, Relation.TransGen (fun a b => a ∈ names ∧ b ∈ names ∧ R a b) (walk i).1
      (walk (i + d + 1)).1 := by
    intro i d
    induction d with
    | zero => exact .single ⟨(walk i).2, (walk (i + 1)).2, hf (walk i)⟩
    | succ d ih => exact .tail ih ⟨(walk (i + d + 1)).2, (walk (i + d + 1 + 1)).2, hf (walk (i + d + 1))⟩
  have : Finite {n // n ∈ names} := Finite.of_fintype _
  obtain ⟨i, j, hij, he⟩ := Finite.exists_ne_map_eq_of_infinite walk
  rcases Nat.lt_or_gt_of_ne hij with hlt | hlt
  · obtain ⟨d, rfl⟩ := Nat.exists_eq_add_of_lt hlt
    refine ⟨(walk i).1, (walk i).2, ?_⟩
    have := hpath i d
    rwa [← he] at this
  · obtain ⟨d, rfl⟩ := Nat.exists_eq_add_of_lt hlt
    refine ⟨(walk j).1, (walk j).2, ?_⟩
    have := hpath j d
    rwa [he] at this

end Verif.Params
