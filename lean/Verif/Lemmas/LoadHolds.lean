import Verif.Lemmas.LoadReads
import Verif.Lemmas.LoadCurves

/-! # The parameters of a document have the values it defines -/

namespace Verif.Load

open Verif.Params Verif.Kinds

variable {W : Type} {A : Args W} {ps : List (Param W)} {n : Nat} {h : Record W}

/-- A run of the parameters of a document. -/
structure Live (A : Args W) (ps : List (Param W)) (n : Nat) (h : Record W) : Prop extends Ran A ps n h where
  gen : ∀ n k, Gen A n k → There ps (A.code n) → (⟨A.code n, k⟩ : Param W) ∈ ps

/-! ## Stages -/

theorem shape_of {ss : List (Source W)} {ph : Phase} {shapes : List Shape} {bs : List Builder}
    (ht : List.Forall₂ (fun u sh => (u.ref = .literal ∧ sh = .literal) ∨ (u.ref = .component ∧ sh = .component) ∨ Gives bs u sh)
      (ss.map fun s => (⟨s.ref, ph⟩ : Use)) shapes) {s : Source W} (hs : s ∈ ss) :
    ∃ sh ∈ shapes, (s.ref = .literal ∧ sh = .literal) ∨ (s.ref = .component ∧ sh = .component) ∨ Gives bs ⟨s.ref, ph⟩ sh := by
  induction ss generalizing shapes with
  | nil => cases hs
  | cons a ss ih =>
    cases ht with
    | cons h1 h2 =>
      rcases List.mem_cons.1 hs with rfl | hs
      · exact ⟨_, List.mem_cons_self .., h1⟩
      · obtain ⟨sh, h3, h4⟩ := ih h2 hs
        exact ⟨sh, List.mem_cons_of_mem _ h3, h4⟩

theorem shows_up {bs : List Builder} (hn : (bs.map Builder.name).Nodup) {s : Source W} {ph : Phase} {sh : Shape}
    (hg : (s.ref = .literal ∧ sh = .literal) ∨ (s.ref = .component ∧ sh = .component) ∨ Gives bs ⟨s.ref, ph⟩ sh)
    {stage : Stage} {t t' : Nat} (hc : (sh.isConst = true ∨ (sh.isSimple = true ∧ t = t'))) (hst : stage = .const ∨ stage = .simple)
    {v : Val} (hv : Shows bs h stage t ph s v) : Shows bs h .before t' ph s v := by
  cases s with
  | lit x => exact hv
  | node f =>
    obtain ⟨w, h1, -⟩ := hv
    rcases hst with rfl | rfl <;> cases h1
  | param r =>
    obtain ⟨m, sh', h1, h2, rfl⟩ := hv
    have h3 : sh = sh' := by
      rcases hg with ⟨hr, -⟩ | ⟨hr, -⟩ | hg
      · rw [show r = .literal from hr] at h1; cases h1
      · rw [show r = .component from hr] at h1; cases h1
      · exact hg.unique hn h2
    subst h3
    refine ⟨m, sh, h1, h2, ?_⟩
    cases sh <;> simp_all [Shape.isConst, Shape.isSimple, History.meaning]

theorem forall_mono {α β : Type} {P Q : α → β → Prop} {as : List α} {bs : List β} (h : List.Forall₂ P as bs)
    (hi : ∀ a ∈ as, ∀ b, P a b → Q a b) : List.Forall₂ Q as bs := by
  induction h with
  | nil => exact .nil
  | cons h1 _ ih => exact .cons (hi _ (List.mem_cons_self ..) _ h1) (ih fun a ha => hi a (List.mem_cons_of_mem _ ha))

theorem forall_swap {α β γ : Type} {R : α → β → Prop} {P : β → γ → Prop} {Q : α → γ → Prop} {as : List α} {bs : List β}
    {cs : List γ} (hr : List.Forall₂ R as bs) (hi : ∀ a b, R a b → b ∈ bs → ∀ c, P b c → Q a c)
    (hp : List.Forall₂ P bs cs) : List.Forall₂ Q as cs := by
  induction hr generalizing cs with
  | nil => cases hp; exact .nil
  | cons h1 _ ih =>
    cases hp with
    | cons h2 h3 =>
      exact .cons (hi _ _ h1 (List.mem_cons_self ..) _ h2) (ih (fun a b h4 h5 => hi a b h4 (List.mem_cons_of_mem _ h5)) h3)

/-- What an aggregate or a difference of settled values has is what it has of the values before the solver. -/
theorem now_up {bs : List Builder} {e : Env} {stage : Stage} {t t' : Nat} {v : Val} {k : Kind W}
    (hk : (∃ ms f, k = .aggregated ms f .before) ∨ (∃ ms f, k = .aggregatedIndex ms f .before) ∨
      (∃ a b lo hi, k = .difference a b lo hi) ∨ ∃ a b c, k = .volumeBetween a b c)
    (hup : ∀ s ∈ k.sources, ∀ v, Shows bs h stage t .before s v → Shows bs h .before t' .before s v)
    (hv : Now bs e h stage t v k) : Now bs e h .before t' v k := by
  rcases hk with ⟨ms, f, rfl⟩ | ⟨ms, f, rfl⟩ | ⟨a, b, lo, hi, rfl⟩ | ⟨a, b, c, rfl⟩
  · obtain ⟨qs, q, h1, h2⟩ := hv
    exact ⟨qs, q, forall_mono h1 fun s hs q ⟨v, h3, h4⟩ => ⟨v, hup s hs v h3, h4⟩, h2⟩
  · obtain ⟨qs, q, h1, h2⟩ := hv
    exact ⟨qs, q, forall_mono h1 fun s hs q ⟨v, h3, h4⟩ => ⟨v, hup s hs v h3, h4⟩, h2⟩
  · obtain ⟨x, y, l, u, q, ⟨v1, h1, h1'⟩, ⟨v2, h2, h2'⟩, h3, h4, h5⟩ := hv
    refine ⟨x, y, l, u, q, ⟨v1, hup _ (by simp [Kind.sources]) _ h1, h1'⟩, ⟨v2, hup _ (by simp [Kind.sources]) _ h2, h2'⟩, ?_, ?_, h5⟩
    · cases lo with
      | none => exact h3
      | some s =>
        obtain ⟨q, ⟨v, h6, h7⟩, h8⟩ := h3
        exact ⟨q, ⟨v, hup _ (by simp [Kind.sources]) _ h6, h7⟩, h8⟩
    · cases hi with
      | none => exact h4
      | some s =>
        obtain ⟨q, ⟨v, h6, h7⟩, h8⟩ := h4
        exact ⟨q, ⟨v, hup _ (by simp [Kind.sources]) _ h6, h7⟩, h8⟩
  · obtain ⟨x, u, l, ⟨v1, h1, h1'⟩, ⟨v2, h2, h2'⟩, ⟨v3, h3, h3'⟩, h4⟩ := hv
    exact ⟨x, u, l, ⟨v1, hup _ (by simp [Kind.sources]) _ h1, h1'⟩, ⟨v2, hup _ (by simp [Kind.sources]) _ h2, h2'⟩,
      ⟨v3, hup _ (by simp [Kind.sources]) _ h3, h3'⟩, h4⟩

theorem forms_in {p : Phase} {shapes : List Shape} : ∃ b a, formOf (generalIn p) shapes = .general b a ∧ (p ≠ .after → b = true) ∧
    (p ≠ .before → a = .value) := by
  cases p
  · exact ⟨_, _, rfl, by simp, by simp⟩
  · exact ⟨_, _, rfl, by simp, by simp⟩
  · exact ⟨_, _, rfl, by simp, by simp⟩

/-- The values of parameters without memory, before the solver and at the end of steps. -/
theorem Live.flat (L : Live A ps n h) {c : Nat} {k : Kind W} (hm : (⟨c, k⟩ : Param W) ∈ ps) (hk : k.Plain) :
    (k.phase ≠ .after → ∀ t < n, Now (builders ps) A.env h .before t (valueOf (builders ps) h c t) k) ∧
    (k.phase ≠ .before → ∀ t < n, Now (builders ps) A.env h .after t (endOf (builders ps) h c t) k) := by
  obtain ⟨form, h1, h2⟩ := L.form hm
  have h3 := (holds_plain hk form).1 (L.holds _ hm _ h1)
  obtain ⟨shapes, h4, h5⟩ := h1
  simp only at h2 h3
  have general : ∀ b a, form = .general b a → (k.phase ≠ .after → b = true) → (k.phase ≠ .before → a = .value) →
      (k.phase ≠ .after → ∀ t < n, Now (builders ps) A.env h .before t (valueOf (builders ps) h c t) k) ∧
      (k.phase ≠ .before → ∀ t < n, Now (builders ps) A.env h .after t (endOf (builders ps) h c t) k) := by
    rintro b a rfl hb ha
    have hv : ∀ t, valueOf (builders ps) h c t = h.value t .before c := fun t => by simp [valueOf, h2, Form.kind]
    have he : ∀ t, endOf (builders ps) h c t = h.value t .after c := fun t => by simp [endOf, h2, Form.kind]
    simp only [hv, he]
    exact ⟨fun hp => h3.1 (hb hp), fun hp => h3.2 (ha hp)⟩
  have shown : ∀ {stage : Stage} {t t' : Nat}, (stage = .const ∨ stage = .simple) →
      (shapes.all Shape.isConst = true ∨ (shapes.all Shape.isSimple = true ∧ t = t')) → k.phase = .before →
      ∀ s ∈ k.sources, ∀ v, Shows (builders ps) h stage t .before s v → Shows (builders ps) h .before t' .before s v := by
    intro stage t t' hst hc hp s hs v hv
    have h4' : List.Forall₂ _ (k.sources.map fun s => (⟨s.ref, k.phase⟩ : Use)) shapes := h4
    obtain ⟨sh, h6, h7⟩ := shape_of h4' hs
    rw [hp] at h7
    exact shows_up L.nodup h7 (hc.imp (fun hc => List.all_eq_true.1 hc _ h6) fun hc => ⟨List.all_eq_true.1 hc.1 _ h6, hc.2⟩) hst hv
  have const : shapes.all Shape.isConst = true → form = .const → k.phase = .before →
      ((∃ ms f, k = .aggregated ms f .before) ∨ (∃ ms f, k = .aggregatedIndex ms f .before) ∨
        (∃ a b lo hi, k = .difference a b lo hi) ∨ ∃ a b c, k = .volumeBetween a b c) →
      ∀ t, Now (builders ps) A.env h .before t (valueOf (builders ps) h c t) k := by
    rintro hall rfl hp hkind t
    have hv : valueOf (builders ps) h c t = h.value 0 .const c := by simp [valueOf, h2, Form.kind]
    rw [hv]
    exact now_up hkind (shown (.inl rfl) (.inl hall) hp) h3
  have simple : shapes.all Shape.isSimple = true → form = .simple → k.phase = .before →
      ((∃ ms f, k = .aggregated ms f .before) ∨ (∃ ms f, k = .aggregatedIndex ms f .before) ∨
        (∃ a b lo hi, k = .difference a b lo hi) ∨ ∃ a b c, k = .volumeBetween a b c) →
      ∀ t < n, Now (builders ps) A.env h .before t (valueOf (builders ps) h c t) k := by
    rintro hall rfl hp hkind t ht
    have hv : valueOf (builders ps) h c t = h.value t .simple c := by simp [valueOf, h2, Form.kind]
    rw [hv]
    exact now_up hkind (shown (.inr rfl) (.inr ⟨hall, rfl⟩) hp) (h3 t ht)
  have simplest : k.style = .simplest → k.phase = .before →
      ((∃ ms f, k = .aggregated ms f .before) ∨ (∃ ms f, k = .aggregatedIndex ms f .before) ∨
        (∃ a b lo hi, k = .difference a b lo hi) ∨ ∃ a b c, k = .volumeBetween a b c) →
      ((k.phase ≠ .after → ∀ t < n, Now (builders ps) A.env h .before t (valueOf (builders ps) h c t) k) ∧
      (k.phase ≠ .before → ∀ t < n, Now (builders ps) A.env h .after t (endOf (builders ps) h c t) k)) := by
    intro hst hp hkind
    have h5' : form = formOf k.style shapes := h5
    rw [hst] at h5'
    simp only [formOf] at h5'
    by_cases hc1 : shapes.all Shape.isConst = true
    · rw [if_pos hc1] at h5'
      exact ⟨fun _ t _ => const hc1 h5' hp hkind t, fun hb => absurd hp hb⟩
    · rw [if_neg hc1] at h5'
      by_cases hc2 : shapes.all Shape.isSimple = true
      · rw [if_pos hc2] at h5'
        exact ⟨fun _ t ht => simple hc2 h5' hp hkind t ht, fun hb => absurd hp hb⟩
      · rw [if_neg hc2] at h5'
        exact general _ _ h5' (fun _ => rfl) fun hb => absurd hp hb
  have inphase : k.style = generalIn k.phase →
      ((k.phase ≠ .after → ∀ t < n, Now (builders ps) A.env h .before t (valueOf (builders ps) h c t) k) ∧
      (k.phase ≠ .before → ∀ t < n, Now (builders ps) A.env h .after t (endOf (builders ps) h c t) k)) := by
    intro hst
    have h5' : form = formOf k.style shapes := h5
    rw [hst] at h5'
    obtain ⟨b, a, h6, h7, h8⟩ := forms_in (p := k.phase) (shapes := shapes)
    exact general b a (h5'.trans h6) h7 h8
  cases k with
  | constant x =>
    obtain rfl : form = .const := h5
    have hv : ∀ t, valueOf (builders ps) h c t = h.value 0 .const c := fun t => by simp [valueOf, h2, Form.kind]
    simp only [hv]
    exact ⟨fun _ _ _ => h3, fun hb => absurd rfl hb⟩
  | scheduled f =>
    obtain rfl : form = .simple := h5
    have hv : ∀ t, valueOf (builders ps) h c t = h.value t .simple c := fun t => by simp [valueOf, h2, Form.kind]
    simp only [hv]
    exact ⟨fun _ => h3, fun hb => absurd rfl hb⟩
  | division _ _ p => exact inphase rfl
  | deficit => exact inphase rfl
  | difference a b lo hi =>
    have h5' : form = formOf (.simpleOr .none) shapes := h5
    simp only [formOf] at h5'
    by_cases hc2 : shapes.all Shape.isSimple = true
    · rw [if_pos hc2] at h5'
      exact ⟨fun _ t ht => simple hc2 h5' rfl (.inr (.inr (.inl ⟨_, _, _, _, rfl⟩))) t ht, fun hb => absurd rfl hb⟩
    · rw [if_neg hc2] at h5'
      exact general _ _ h5' (fun _ => rfl) fun hb => absurd rfl hb
  | volumeBetween a b c =>
    have h5' : form = formOf (.simpleOr .none) shapes := h5
    simp only [formOf] at h5'
    by_cases hc2 : shapes.all Shape.isSimple = true
    · rw [if_pos hc2] at h5'
      exact ⟨fun _ t ht => simple hc2 h5' rfl (.inr (.inr (.inr ⟨_, _, _, rfl⟩))) t ht, fun hb => absurd rfl hb⟩
    · rw [if_neg hc2] at h5'
      exact general _ _ h5' (fun _ => rfl) fun hb => absurd rfl hb
  | aggregated ms f p =>
    by_cases hp : p = .before
    · subst hp
      exact simplest rfl rfl (.inl ⟨_, _, rfl⟩)
    · exact inphase (if_neg hp)
  | aggregatedIndex ms f p =>
    by_cases hp : p = .before
    · subst hp
      exact simplest rfl rfl (.inr (.inl ⟨_, _, rfl⟩))
    · exact inphase (if_neg hp)
  | offset => exact hk.elim
  | delay => exact hk.elim
  | delayIndex => exact hk.elim
  | rolling => exact hk.elim
  | rollingIndex => exact hk.elim
  | asymmetric => exact hk.elim
  | threshold => exact hk.elim
  | multiThreshold => exact hk.elim
  | _ => exact inphase rfl

/-! ## Metrics -/

theorem Live.gives (L : Live A ps n h) {c : Nat} {k : Kind W} (hm : (⟨c, k⟩ : Param W) ∈ ps) {s : Source W} (hs : s ∈ k.sources)
    (ht : s.ref.target.isSome) : ∃ sh, Gives (builders ps) ⟨s.ref, k.phase⟩ sh := by
  obtain ⟨form, h1, -⟩ := L.form hm
  exact Kinds.Takes.gives h1 ⟨s.ref, k.phase⟩ (List.mem_map.2 ⟨s, hs, rfl⟩) ht

theorem Live.num (L : Live A ps n h) {c : Nat} {k : Kind W} (hm : (⟨c, k⟩ : Param W) ∈ ps) {o : Option String} {m : SMetric}
    {s : Source W} (hb : Became A ps o m s) (hs : s ∈ k.sources) {side : Side} (hp : side = .early → k.phase ≠ .after) {t : Nat}
    (ht : t < n) (q : ℚ) :
    Num (builders ps) h side.stage t k.phase s q ↔ SNum A (storyOf A (builders ps) h) side t o m q :=
  num_iff L.toRan L.gen hb (L.gives hm hs) hp ht q

theorem Live.idx (L : Live A ps n h) {c : Nat} {k : Kind W} (hm : (⟨c, k⟩ : Param W) ∈ ps) {o : Option String} {m : SIndex}
    {s : Source W} (hb : BecameIndex A o m s) (hs : s ∈ k.sources) {side : Side} (hp : side = .early → k.phase ≠ .after)
    {t : Nat} (i : Nat) :
    Idx (builders ps) h side.stage t k.phase s i ↔ SIdx A (storyOf A (builders ps) h) side t o m i :=
  idx_iff L.toRan hb (L.gives hm hs) hp i

/-- What metrics return is what they show. -/
theorem Live.tells (L : Live A ps n h) {c : Nat} {k : Kind W} (hm : (⟨c, k⟩ : Param W) ∈ ps) (hph : k.phase = .before)
    {o : Option String} {t : Nat} (ht : t < n) {ms : List SMetric} {ss : List (Source W)} (hb : List.Forall₂ (Became A ps o) ms ss)
    (hss : ∀ s ∈ ss, s ∈ k.sources) {xs : List (Option Val)}
    (hx : List.Forall₂ (fun s o => ∀ x, o = some x ↔ Shows (builders ps) h .before t .before s x) ss xs) :
    List.Forall₂ (fun m (x : Option Val) => Tells (SNum A (storyOf A (builders ps) h) .early t o) m (x.map Val.num)) ms xs := by
  refine forall_swap hb (fun m s h1 h2 x h3 q => ?_) hx
  have h4 := L.num hm h1 (hss s h2) (side := .early) (by rw [hph]; simp) ht q
  rw [hph] at h4
  rw [← h4, Option.map_eq_some_iff]
  constructor
  · rintro ⟨v, h5, rfl⟩; exact ⟨v, (h3 v).1 h5, rfl⟩
  · rintro ⟨v, h5, rfl⟩; exact ⟨v, (h3 v).2 h5, rfl⟩

theorem tells_nums {N : SMetric → ℚ → Prop} {ms : List SMetric} {xs : List (Option Val)}
    (hx : List.Forall₂ (fun m (x : Option Val) => Tells N m (x.map Val.num)) ms xs) : List.Forall₂ (Tells N) ms (nums xs) :=
  List.forall₂_map_right_iff.2 hx

theorem split_tells {α β : Type} {P : α → β → Prop} {as bs : List α} {cs : List β} (hx : List.Forall₂ P (as ++ bs) cs) {l : Nat}
    (hl : as.length = l) : List.Forall₂ P as (cs.take l) ∧ List.Forall₂ P bs (cs.drop l) := by
  subst hl
  have h1 := List.forall₂_take as.length hx
  have h2 := List.forall₂_drop as.length hx
  rw [List.take_left] at h1
  rw [List.drop_left] at h2
  exact ⟨h1, h2⟩

end Verif.Load
