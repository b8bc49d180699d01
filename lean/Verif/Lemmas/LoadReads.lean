import Verif.Lemmas.LoadDoc
import Verif.Lemmas.KindsRun

/-! # Metrics of the network show what metrics of the document say -/

namespace Verif.Load

open Verif.Params Verif.Kinds

variable {W : Type} {A : Args W} {D : Doc} {bs : List Builder} {h : Record W}

open Classical in
/-- When the values of a parameter are known. -/
noncomputable def timing (bs : List Builder) (c : Nat) : Params.Kind :=
  if hc : ∃ k ty, Calculable bs c ty k then hc.choose else .const

theorem timing_eq (hn : (bs.map Builder.name).Nodup) {c : Nat} {ty : Ty} {k : Params.Kind} (hc : Calculable bs c ty k) :
    timing bs c = k := by
  have hex : ∃ k ty, Calculable bs c ty k := ⟨k, ty, hc⟩
  unfold timing
  rw [dif_pos hex]
  exact (hex.choose_spec.choose_spec.unique hn hc).2

/-- The value from before the solver. -/
noncomputable def valueOf (bs : List Builder) (h : Record W) (c t : Nat) : Val :=
  match timing bs c with
  | .const => h.value 0 .const c
  | .simple => h.value t .simple c
  | .general _ _ => h.value t .before c

/-- The value at the end of a step. -/
noncomputable def endOf (bs : List Builder) (h : Record W) (c t : Nat) : Val :=
  match timing bs c with
  | .const => h.value 0 .const c
  | .simple => h.value t .simple c
  | .general _ _ => h.value t .after c

/-- The parameter does not wait for the solver. -/
def Still (bs : List Builder) (c : Nat) : Prop := timing bs c = .const ∨ timing bs c = .simple

/-- The story of a run. -/
noncomputable def storyOf (A : Args W) (bs : List Builder) (h : Record W) : Story W where
  before o name := valueOf bs h (A.code (named name o))
  after o name := endOf bs h (A.code (named name o))
  settled o name := Still bs (A.code (named name o))
  early := h.ready
  late t := h.world (t + 1)

/-- The stage in which a metric is looked at. -/
def Side.stage : Side → Stage
  | .early => .before
  | .late => .after

/-- What a reference means in terms of the values of parameters. -/
theorem means_iff (hn : (bs.map Builder.name).Nodup) {r : Ref} {c : Nat} {want : Want}
    (hr : r = .value c want ∨ r = .index c want) {ph : Phase} (hg : ∃ sh, Gives bs ⟨r, ph⟩ sh) {side : Side}
    (hs : side = .early → ph ≠ .after) (t : Nat) (v : Val) :
    Means bs h ⟨0, 0⟩ side.stage t ⟨r, ph⟩ v ↔
      match (generalizing := false) want with
      | .before => v = valueOf bs h c t
      | .after => v = endOf bs h c t
      | .afterOrInitial =>
        (side = .late ∨ Still bs c → v = endOf bs h c t) ∧
        (side = .early → ¬ Still bs c → (t = 0 → v = ⟨0, 0⟩) ∧ ∀ s, t = s + 1 → v = endOf bs h c s) := by
  obtain ⟨sh, hg⟩ := hg
  have hm : Means bs h ⟨0, 0⟩ side.stage t ⟨r, ph⟩ v ↔ v = h.meaning ⟨0, 0⟩ side.stage t c sh := by
    constructor
    · rintro ⟨m, sh', h1, h2, rfl⟩
      obtain rfl := hg.unique hn h2
      rcases hr with rfl | rfl <;> · obtain rfl := Option.some.inj h1; rfl
    · intro hv
      exact ⟨c, sh, by rcases hr with rfl | rfl <;> rfl, hg, hv⟩
  rw [hm]
  obtain ⟨b, -, h1, -, k, h2, h3⟩ := hg
  have hb : b.name = c := by
    rcases hr with rfl | rfl <;> exact (Option.some.inj h1).symm
  rw [hb] at h2
  have hk := timing_eq hn h2
  rcases hr with rfl | rfl <;> cases want <;> cases k <;> cases side <;>
    simp only [Offers, Offers.strict, Offers.lenient, Offers.general, reduceCtorEq, if_false, if_true, Option.some_inj] at h3 <;>
    (try cases h3) <;>
    (try (split_ifs at h3 with hc; obtain rfl := Option.some.inj h3)) <;>
    simp_all [valueOf, endOf, Still, History.meaning, History.previous, Side.stage]
  all_goals (cases t <;> simp)

/-- What is used of a run. -/
structure Ran (A : Args W) (ps : List (Param W)) (n : Nat) (h : Record W) : Prop where
  nodup : ((builders ps).map Builder.name).Nodup
  known : ∀ p ∈ ps, ∃ k, Calculable (builders ps) p.name p.kind.ty k
  holds : ∀ p ∈ ps, ∀ form, Takes (builders ps) (p.kind.builder p.name) form →
    Holds (builders ps) A.env h n p.name form p.kind

variable {ps : List (Param W)} {n : Nat}

theorem mem_builders {p : Param W} (hp : p ∈ ps) : p.kind.builder p.name ∈ builders ps := List.mem_map.2 ⟨p, hp, rfl⟩

theorem Ran.form (R : Ran A ps n h) {p : Param W} (hp : p ∈ ps) :
    ∃ form, Takes (builders ps) (p.kind.builder p.name) form ∧ timing (builders ps) p.name = form.kind := by
  obtain ⟨k, hk⟩ := R.known p hp
  obtain ⟨form, h1, rfl⟩ := takes_of_calculable R.nodup (mem_builders hp) hk
  exact ⟨form, h1, timing_eq R.nodup hk⟩

theorem ty_ne_multi (k : Kind W) : k.ty ≠ .multi := by cases k <;> simp [Kind.ty]

theorem no_multi {r : Ref} {ph : Phase} {sh : Shape} (hg : Gives (builders ps) ⟨r, ph⟩ sh) {c : Nat} {want : Want} :
    r ≠ .valueMulti c want ∧ r ≠ .indexMulti c want := by
  obtain ⟨b, hb, -, h1, -⟩ := hg
  obtain ⟨p, -, rfl⟩ := List.mem_map.1 hb
  constructor
  · rintro rfl; exact ty_ne_multi p.kind h1
  · rintro rfl; exact ty_ne_multi p.kind h1

theorem reads_iff (R : Ran A ps n h) {r : PRef} {o : Option String} {s : Source W} (hs : s = r.load A o ∨ s = r.loadIndex A o)
    {ph : Phase} (hg : ∃ sh, Gives (builders ps) ⟨s.ref, ph⟩ sh) {side : Side} (hp : side = .early → ph ≠ .after) (t : Nat)
    (v : Val) :
    Shows (builders ps) h side.stage t ph s v ↔ Reads (storyOf A (builders ps) h) side t o r v := by
  obtain ⟨name, key, ret⟩ := r
  have hk : key = none := by
    cases key with
    | none => rfl
    | some k =>
      obtain ⟨sh, hg⟩ := hg
      rcases hs with rfl | rfl
      · exact absurd rfl (no_multi hg).1
      · exact absurd rfl (no_multi hg).2
  subst hk
  have hr : ∃ r, s = .param r ∧
      (r = .value (A.code (named name o)) (ret.getD .before) ∨ r = .index (A.code (named name o)) (ret.getD .before)) := by
    rcases hs with rfl | rfl
    · exact ⟨_, rfl, .inl rfl⟩
    · exact ⟨_, rfl, .inr rfl⟩
  obtain ⟨r, rfl, hr⟩ := hr
  show Means _ _ _ _ _ _ _ ↔ _
  rw [means_iff R.nodup hr hg hp]
  simp only [Reads, true_and]
  generalize ret.getD .before = want
  cases want <;> rfl

theorem load_target {r : PRef} {o : Option String} : (r.load A o).ref.target.isSome := by
  unfold PRef.load
  cases r.key <;> rfl

theorem loadIndex_target {r : PRef} {o : Option String} : (r.loadIndex A o).ref.target.isSome := by
  unfold PRef.loadIndex
  cases r.key <;> rfl

theorem exists_num {P : Val → Prop} {v : Val} (hp : ∀ x, P x ↔ x = v) (q : ℚ) : (∃ x, P x ∧ q = x.num) ↔ q = v.num := by
  constructor
  · rintro ⟨x, hx, rfl⟩; rw [(hp x).1 hx]
  · rintro rfl; exact ⟨v, (hp v).2 rfl, rfl⟩

/-- The values of the parameters made for series. -/
theorem series_value (R : Ran A ps n h) {c : Nat} {f : Nat → Option ℚ} (hm : (⟨c, .scheduled f⟩ : Param W) ∈ ps) {t : Nat}
    (ht : t < n) (q : ℚ) : f t = some q ↔ q = (valueOf (builders ps) h c t).num := by
  obtain ⟨form, h1, h2⟩ := R.form hm
  have hf : form = .simple := by obtain ⟨_, -, rfl⟩ := h1; rfl
  subst hf
  obtain ⟨q', h3, h4⟩ := R.holds _ hm _ h1 t ht
  have h5 : valueOf (builders ps) h c t = h.value t .simple c := by
    unfold valueOf
    rw [show timing (builders ps) c = .simple from h2]
  rw [h5, h4.1, h3, Option.some_inj]
  exact eq_comm

/-- The values of the parameters made for deficits. -/
theorem deficit_value (R : Ran A ps n h) {c : Nat} {f l : W → Option ℚ}
    (hm : (⟨c, .deficit (.node fun w => (f w).map ofF) (.node fun w => (l w).map ofF)⟩ : Param W) ∈ ps) {t : Nat}
    (ht : t < n) (q : ℚ) : Lacks (h.world (t + 1)) f l q ↔ q = (endOf (builders ps) h c t).num := by
  obtain ⟨form, h1, h2⟩ := R.form hm
  have hf : form = .general false .value := by obtain ⟨_, -, rfl⟩ := h1; rfl
  subst hf
  obtain ⟨x, y, ⟨v, ⟨w, h3, h4⟩, rfl⟩, ⟨v', ⟨w', h5, h6⟩, rfl⟩, h7⟩ := (R.holds _ hm _ h1).2 rfl t ht
  obtain rfl := Option.some.inj h3
  obtain rfl := Option.some.inj h5
  obtain ⟨a, h8, rfl⟩ := Option.map_eq_some_iff.1 h4
  obtain ⟨b, h9, rfl⟩ := Option.map_eq_some_iff.1 h6
  have h10 : endOf (builders ps) h c t = h.value t .after c := by
    unfold endOf
    rw [show timing (builders ps) c = .general false true from h2]
  rw [h10, h7.1]
  constructor
  · rintro ⟨x, y, k1, k2, rfl⟩
    rw [h8] at k1
    rw [h9] at k2
    obtain rfl := Option.some.inj k1
    obtain rfl := Option.some.inj k2
    rfl
  · rintro rfl
    exact ⟨a, b, h8, h9, rfl⟩

theorem deficit_late (R : Ran A ps n h) {c : Nat} {f l : Source W} (hm : (⟨c, .deficit f l⟩ : Param W) ∈ ps) :
    ¬ Still (builders ps) c := by
  obtain ⟨form, ⟨_, -, rfl⟩, h2⟩ := R.form hm
  have : timing (builders ps) c = .general false true := h2
  simp [Still, this]

theorem num_iff (R : Ran A ps n h) (hgen : ∀ n k, Gen A n k → There ps (A.code n) → (⟨A.code n, k⟩ : Param W) ∈ ps)
    {o : Option String} {m : SMetric} {s : Source W} (hb : Became A ps o m s) {ph : Phase}
    (hg : s.ref.target.isSome → ∃ sh, Gives (builders ps) ⟨s.ref, ph⟩ sh) {side : Side} (hp : side = .early → ph ≠ .after)
    {t : Nat} (ht : t < n) (q : ℚ) :
    Num (builders ps) h side.stage t ph s q ↔ SNum A (storyOf A (builders ps) h) side t o m q := by
  cases m with
  | literal v =>
    subst hb
    simp [Num, Shows, SNum, ofF]
  | table r =>
    obtain ⟨v, hv, rfl⟩ := hb
    simp only [Num, Shows, SNum, ofF, hv, exists_eq_left, Option.some_inj]
    exact eq_comm
  | component c =>
    rcases hb with ⟨f, hf, rfl⟩ | ⟨node, f, l, hf, rfl, hthere⟩
    · simp only [Num, Shows, SNum, hf, Except.ok.injEq, exists_eq_left']
      have hv : visible h side.stage t = some ((storyOf A (builders ps) h).net side t) := by cases side <;> rfl
      rw [hv]
      simp only [Option.some_inj, exists_eq_left', Option.map_eq_some_iff]
      constructor
      · rintro ⟨v, ⟨a, h1, rfl⟩, rfl⟩; exact h1
      · intro h1; exact ⟨_, ⟨q, h1, rfl⟩, rfl⟩
    · have hm := hgen _ _ (.deficit c node f l hf) hthere
      have hl := fun {s : Nat} (hs : s < n) (q : ℚ) => deficit_value R hm hs q
      have hst := deficit_late R hm
      simp only [SNum, hf, Except.ok.injEq, exists_eq_left']
      show (∃ v, Means _ _ _ _ _ _ v ∧ _) ↔ _
      simp only [means_iff R.nodup (.inl rfl) (hg rfl) hp]
      cases side with
      | late =>
        simp only [reduceCtorEq, true_or, forall_const, false_implies, and_true, exists_eq_left]
        exact (hl ht q).symm
      | early =>
        simp only [reduceCtorEq, false_or, hst, false_implies, true_and, not_false_eq_true, forall_const]
        cases t with
        | zero => simp
        | succ t =>
          simp only [Nat.add_eq_zero_iff, and_false, one_ne_zero, false_implies, true_and, Nat.add_right_cancel_iff,
            forall_eq', exists_eq_left]
          exact (hl (by omega) q).symm
  | series sr cols =>
    obtain ⟨table, name, f, h1, h2, rfl, h3, h4⟩ := hb
    have hm := hgen _ _ h2 h3
    show (∃ v, Means _ _ _ _ _ _ v ∧ _) ↔ SeriesShows A sr cols t q
    simp only [means_iff R.nodup (.inl rfl) (hg rfl) hp, exists_eq_left]
    rw [← series_value R hm ht q, h4]
    simp only [SeriesShows, h1, Option.some_inj, exists_eq_left']
    match cols with
    | none => rfl
    | some (.column _) => rfl
    | some (.scenario _) => rfl
  | param r =>
    have hb' : s = r.load A none := hb
    have ht' : s.ref.target.isSome := by rw [hb']; exact load_target
    show (∃ v, _ ∧ _) ↔ ∃ v, _ ∧ _
    simp only [reads_iff R (.inl hb') (hg ht') hp]
  | localParam r =>
    obtain ⟨p, rfl, hb'⟩ := hb
    have ht' : s.ref.target.isSome := by rw [hb']; exact load_target
    show (∃ v, _ ∧ _) ↔ _ ∧ ∃ v, _ ∧ _
    simp only [reads_iff R (.inl hb') (hg ht') hp, ne_eq, reduceCtorEq, not_false_eq_true, true_and]

theorem idx_iff (R : Ran A ps n h) {o : Option String} {m : SIndex} {s : Source W} (hb : BecameIndex A o m s) {ph : Phase}
    (hg : s.ref.target.isSome → ∃ sh, Gives (builders ps) ⟨s.ref, ph⟩ sh) {side : Side} (hp : side = .early → ph ≠ .after)
    {t : Nat} (k : Nat) :
    Idx (builders ps) h side.stage t ph s k ↔ SIdx A (storyOf A (builders ps) h) side t o m k := by
  cases m with
  | constant v =>
    subst hb
    simp [Idx, Shows, SIdx, ofU]
  | table r =>
    obtain ⟨v, hv, rfl⟩ := hb
    simp only [Idx, Shows, SIdx, ofU, hv, exists_eq_left, Option.some_inj]
    exact eq_comm
  | node => exact hb.elim
  | param r =>
    have hb' : s = r.loadIndex A none := hb
    have ht' : s.ref.target.isSome := by rw [hb']; exact loadIndex_target
    show (∃ v, _ ∧ _) ↔ ∃ v, _ ∧ _
    simp only [reads_iff R (.inr hb') (hg ht') hp]
  | localParam r =>
    obtain ⟨p, rfl, hb'⟩ := hb
    have ht' : s.ref.target.isSome := by rw [hb']; exact loadIndex_target
    show (∃ v, _ ∧ _) ↔ _ ∧ ∃ v, _ ∧ _
    simp only [reads_iff R (.inr hb') (hg ht') hp, ne_eq, reduceCtorEq, not_false_eq_true, true_and]
  | transfer nm =>
    subst hb
    simp only [Idx, Shows, SIdx]
    have hv : visible h side.stage t = some ((storyOf A (builders ps) h).net side t) := by cases side <;> rfl
    rw [hv]
    simp only [Option.some_inj, exists_eq_left', Option.map_eq_some_iff]
    constructor
    · rintro ⟨v, ⟨a, h1, rfl⟩, rfl⟩; exact h1
    · intro h1; exact ⟨_, ⟨k, h1, rfl⟩, rfl⟩

end Verif.Load
