import Mathlib.Data.Fintype.EquivFin
import Mathlib.Data.List.Nodup
import Verif.Spec.Params

namespace Verif.Params

/-! ## Duplicates and arranging -/

theorem firstDuplicate_none (ns : List Name) : ∀ seen, firstDuplicate seen ns = none →
    ns.Nodup ∧ ∀ n ∈ ns, n ∉ seen := by
  induction ns with
  | nil => intro seen _; simp
  | cons a ns ih =>
    intro seen h
    unfold firstDuplicate at h
    by_cases ha : a ∈ seen
    · rw [if_pos ha] at h; cases h
    · rw [if_neg ha] at h
      obtain ⟨h1, h2⟩ := ih _ h
      refine ⟨List.nodup_cons.2 ⟨?_, h1⟩, ?_⟩
      · intro hm; exact h2 a hm (List.mem_cons_self ..)
      · intro n hn
        rcases List.mem_cons.1 hn with rfl | hn
        · exact ha
        · intro hs; exact h2 n hn (List.mem_cons_of_mem _ hs)

theorem firstDuplicate_some (ns : List Name) : ∀ seen d, seen.Nodup → firstDuplicate seen ns = some d →
    2 ≤ (seen ++ ns).count d := by
  induction ns with
  | nil => intro seen d _ h; cases h
  | cons a ns ih =>
    intro seen d hs h
    unfold firstDuplicate at h
    by_cases ha : a ∈ seen
    · rw [if_pos ha] at h
      cases h
      rw [List.count_append, List.count_cons_self]
      have := List.count_pos_iff.2 ha
      omega
    · rw [if_neg ha] at h
      have := ih (a :: seen) d (List.nodup_cons.2 ⟨ha, hs⟩) h
      rw [List.count_append] at this ⊢
      rw [List.count_cons] at this ⊢
      omega

theorem arrange_perm (bs : List Builder) : (arrange bs).Perm bs := by
  induction bs with
  | nil => exact List.Perm.refl _
  | cons b bs ih =>
    unfold arrange at ih ⊢
    cases hb : b.ty <;> simp only [List.filter_cons, hb, decide_true, decide_false, reduceCtorEq,
      Bool.false_eq_true, if_true, if_false]
    · exact (List.Perm.cons b ih)
    · refine List.Perm.trans ?_ (List.Perm.cons b ih)
      simp only [List.append_assoc, List.cons_append]
      exact List.perm_middle
    · refine List.Perm.trans ?_ (List.Perm.cons b ih)
      exact List.perm_middle

/-! ## Lookup and resolution -/

theorem lookup_mem {maps : Maps} {t : Ty} {n : Name} {idx : Index} (h : lookup maps t n = some idx) :
    (n, t, idx) ∈ maps := by
  unfold lookup at h
  obtain ⟨e, he, rfl⟩ := Option.map_eq_some_iff.1 h
  have h1 := List.find?_some he
  have h2 := List.mem_of_find?_eq_some he
  simp only [decide_eq_true_eq] at h1
  obtain ⟨a, b, i⟩ := e
  obtain ⟨rfl, rfl⟩ := h1
  exact h2

theorem lookup_none {maps : Maps} {t : Ty} {n : Name} (h : lookup maps t n = none) (idx : Index) :
    (n, t, idx) ∉ maps := by
  intro hm
  unfold lookup at h
  rw [Option.map_eq_none_iff, List.find?_eq_none] at h
  exact h _ hm (by simp)

theorem lookup_of_mem {maps : Maps} (hn : (maps.map Prod.fst).Nodup) {t : Ty} {n : Name} {idx : Index}
    (h : (n, t, idx) ∈ maps) : lookup maps t n = some idx := by
  cases hl : lookup maps t n with
  | none => exact absurd h (lookup_none hl idx)
  | some i =>
    have := lookup_mem hl
    have he := List.inj_on_of_nodup_map hn this h rfl
    cases he; rfl

theorem lookup_append {maps : Maps} {t : Ty} {n : Name} {idx : Index} (e : Name × Ty × Index)
    (h : lookup maps t n = some idx) : lookup (maps ++ [e]) t n = some idx := by
  unfold lookup at h ⊢
  obtain ⟨e', he, rfl⟩ := Option.map_eq_some_iff.1 h
  rw [List.find?_append, he]; rfl

theorem lookup_append_ne {maps : Maps} {t : Ty} {n : Name} (e : Name × Ty × Index) (hne : e.1 ≠ n) :
    lookup (maps ++ [e]) t n = lookup maps t n := by
  unfold lookup
  rw [List.find?_append]
  have : List.find? (fun e => decide (e.1 = n ∧ e.2.1 = t)) [e] = none := by
    rw [List.find?_eq_none]; intro x hx; rw [List.mem_singleton.1 hx]; simp [hne]
  rw [this]; simp

/-- The slots a registered parameter offers. -/
def Index.slots (t : Ty) : Index → List Slot
  | .const i => [⟨.const, t, i⟩]
  | .simple i => [⟨.simple, t, i⟩]
  | .general b a => (b.map (Slot.mk .before t)).toList ++ (a.map (Slot.mk .after t)).toList

theorem resolveGeneral_slot {n t b a w p m} (h : resolveGeneral n t b a w p = .ok m) :
    ∃ s, m = .slot s ∧ s ∈ Index.slots t (.general b a) ∧
      ((w = .before ∧ s.stage = .before) ∨ (w = .after ∧ p = .after ∧ s.stage = .after) ∨
        (w = .afterOrInitial ∧ s.stage = .after)) := by
  unfold resolveGeneral at h
  cases w <;> cases p <;> cases a <;> cases b <;> simp_all [Index.slots] <;> (subst h; simp)

theorem resolveStrict_slot {n t idx w p m} (h : resolveStrict n t idx w p = .ok m) :
    ∃ s, m = .slot s ∧ s ∈ idx.slots t ∧
      ((w = .before ∧ s.stage ≠ .after) ∨ (w = .after ∧ p = .after ∧ s.stage = .after) ∨
        (w = .afterOrInitial ∧ s.stage = .after)) := by
  cases idx with
  | const i => cases w <;> simp_all [resolveStrict, Index.slots]
  | simple i => cases w <;> simp_all [resolveStrict, Index.slots]
  | general b a =>
    obtain ⟨s, rfl, h2, h3⟩ := resolveGeneral_slot (show resolveGeneral n t b a w p = .ok m from h)
    refine ⟨s, rfl, h2, ?_⟩
    rcases h3 with ⟨h3, h4⟩ | h3 | h3
    · exact Or.inl ⟨h3, by rw [h4]; simp⟩
    · exact Or.inr (Or.inl h3)
    · exact Or.inr (Or.inr h3)

theorem resolveLenient_slot {n t idx w p m} (h : resolveLenient n t idx w p = .ok m) :
    ∃ s, m = .slot s ∧ s ∈ idx.slots t ∧
      (s.stage ≠ .after ∨ (w = .after ∧ p = .after ∧ s.stage = .after) ∨
        (w = .afterOrInitial ∧ s.stage = .after)) := by
  cases idx with
  | const i => simp_all [resolveLenient, Index.slots]
  | simple i => simp_all [resolveLenient, Index.slots]
  | general b a =>
    obtain ⟨s, rfl, h2, h3⟩ := resolveGeneral_slot (show resolveGeneral n t b a w p = .ok m from h)
    refine ⟨s, rfl, h2, ?_⟩
    rcases h3 with ⟨h3, h4⟩ | h3 | h3
    · exact Or.inl (by rw [h4]; simp)
    · exact Or.inr (Or.inl h3)
    · exact Or.inr (Or.inr h3)

/-- What a successful resolution says. -/
structure Resolved (maps : Maps) (p : Phase) (r : Ref) (s : Slot) : Prop where
  reg : ∃ n t idx, r.target = some n ∧ r.Usable t ∧ lookup maps t n = some idx ∧ s ∈ idx.slots t
  after : s.stage = .after → (r.want = some .after ∧ p = .after) ∨ r.want = some .afterOrInitial
  strict : r.Strict → (r.want = some .before ↔ s.stage ≠ .after)

theorem resolve_slot {maps : Maps} {p : Phase} {r : Ref} {s : Slot}
    (h : resolve maps p r = .ok (.slot s)) : Resolved maps p r s := by
  have strict : ∀ n t idx w, r.target = some n → r.want = some w → r.Usable t →
      lookup maps t n = some idx → resolveStrict n t idx w p = .ok (.slot s) →
      Resolved maps p r s := by
    intro n t idx w h1 h2 h3 h4 h5
    obtain ⟨s', hs, hm, hc⟩ := resolveStrict_slot h5
    cases hs
    refine ⟨⟨n, t, idx, h1, h3, h4, hm⟩, ?_, ?_⟩
    · intro ha
      rw [h2]
      rcases hc with ⟨-, h⟩ | ⟨rfl, h, -⟩ | ⟨rfl, -⟩
      · exact absurd ha h
      · exact Or.inl ⟨rfl, h⟩
      · exact Or.inr rfl
    · intro _
      rw [h2]
      rcases hc with ⟨rfl, h⟩ | ⟨rfl, -, h⟩ | ⟨rfl, h⟩ <;> simp [h]
  have lenient : ∀ n t idx w, r.target = some n → r.want = some w → r.Usable t → ¬ r.Strict →
      lookup maps t n = some idx → resolveLenient n t idx w p = .ok (.slot s) →
      Resolved maps p r s := by
    intro n t idx w h1 h2 h3 hns h4 h5
    obtain ⟨s', hs, hm, hc⟩ := resolveLenient_slot h5
    cases hs
    refine ⟨⟨n, t, idx, h1, h3, h4, hm⟩, ?_, fun h => absurd h hns⟩
    intro ha
    rw [h2]
    rcases hc with h | ⟨rfl, h, -⟩ | ⟨rfl, -⟩
    · exact absurd ha h
    · exact Or.inl ⟨rfl, h⟩
    · exact Or.inr rfl
  cases r with
  | literal => simp [resolve] at h
  | component => simp [resolve] at h
  | value n w =>
    simp only [resolve] at h
    cases h1 : lookup maps .f64 n with
    | some idx => rw [h1] at h; exact strict n _ idx w rfl rfl (Or.inl rfl) h1 h
    | none =>
      rw [h1] at h
      cases h2 : lookup maps .u64 n with
      | some idx => rw [h2] at h; exact strict n _ idx w rfl rfl (Or.inr rfl) h2 h
      | none => rw [h2] at h; cases h
  | valueMulti n w =>
    simp only [resolve] at h
    cases h1 : lookup maps .multi n with
    | some idx => rw [h1] at h; exact strict n _ idx w rfl rfl rfl h1 h
    | none => rw [h1] at h; cases h
  | index n w =>
    simp only [resolve] at h
    cases h1 : lookup maps .u64 n with
    | some idx => rw [h1] at h; exact lenient n _ idx w rfl rfl rfl (fun h => h) h1 h
    | none => rw [h1] at h; cases h
  | indexMulti n w =>
    simp only [resolve] at h
    cases h1 : lookup maps .multi n with
    | some idx => rw [h1] at h; exact lenient n _ idx w rfl rfl rfl (fun h => h) h1 h
    | none => rw [h1] at h; cases h

/-- A reference that is not found names a parameter without a usable registration. -/
theorem resolve_notFound {maps : Maps} {p : Phase} {r : Ref} {n : Name}
    (h : resolve maps p r = .error (.notFound n)) :
    r.target = some n ∧ ∀ t, r.Usable t → lookup maps t n = none := by
  have strict : ∀ n' t idx w, resolveStrict n' t idx w p ≠ .error (.notFound n) := by
    intro n' t idx w h
    unfold resolveStrict resolveGeneral at h
    cases idx with
    | const i => cases w <;> simp at h
    | simple i => cases w <;> simp at h
    | general b a => cases w <;> cases p <;> cases a <;> cases b <;> simp at h
  have lenient : ∀ n' t idx w, resolveLenient n' t idx w p ≠ .error (.notFound n) := by
    intro n' t idx w h
    unfold resolveLenient resolveGeneral at h
    cases idx with
    | const i => simp at h
    | simple i => simp at h
    | general b a => cases w <;> cases p <;> cases a <;> cases b <;> simp at h
  cases r with
  | literal => simp [resolve] at h
  | component => simp [resolve] at h
  | value m w =>
    simp only [resolve] at h
    cases h1 : lookup maps .f64 m with
    | some idx => rw [h1] at h; exact absurd h (strict _ _ _ _)
    | none =>
      rw [h1] at h
      cases h2 : lookup maps .u64 m with
      | some idx => rw [h2] at h; exact absurd h (strict _ _ _ _)
      | none =>
        rw [h2] at h; cases h
        exact ⟨rfl, fun t ht => by rcases ht with rfl | rfl <;> assumption⟩
  | valueMulti m w =>
    simp only [resolve] at h
    cases h1 : lookup maps .multi m with
    | some idx => rw [h1] at h; exact absurd h (strict _ _ _ _)
    | none => rw [h1] at h; cases h; exact ⟨rfl, fun t ht => by cases ht; exact h1⟩
  | index m w =>
    simp only [resolve] at h
    cases h1 : lookup maps .u64 m with
    | some idx => rw [h1] at h; exact absurd h (lenient _ _ _ _)
    | none => rw [h1] at h; cases h; exact ⟨rfl, fun t ht => by cases ht; exact h1⟩
  | indexMulti m w =>
    simp only [resolve] at h
    cases h1 : lookup maps .multi m with
    | some idx => rw [h1] at h; exact absurd h (lenient _ _ _ _)
    | none => rw [h1] at h; cases h; exact ⟨rfl, fun t ht => by cases ht; exact h1⟩

theorem resolveAll_ok {maps : Maps} : ∀ {us : List Use} {rs : List Read},
    resolveAll maps us = .ok rs →
    rs.map Read.use = us ∧ ∀ r ∈ rs, resolve maps r.use.phase r.use.ref = .ok r.metric := by
  intro us
  induction us with
  | nil => intro rs h; cases h; simp
  | cons u us ih =>
    intro rs h
    unfold resolveAll at h
    cases h1 : resolve maps u.phase u.ref with
    | error e => rw [h1] at h; cases h
    | ok m =>
      rw [h1] at h
      cases h2 : resolveAll maps us with
      | error e => rw [h2] at h; cases h
      | ok rs' =>
        rw [h2] at h; cases h
        obtain ⟨h3, h4⟩ := ih h2
        refine ⟨by simp [h3], ?_⟩
        intro r hr
        rcases List.mem_cons.1 hr with rfl | hr
        · exact h1
        · exact h4 r hr

theorem resolveAll_error {maps : Maps} : ∀ {us : List Use} {e : ResolveError},
    resolveAll maps us = .error e → ∃ u ∈ us, resolve maps u.phase u.ref = .error e := by
  intro us
  induction us with
  | nil => intro e h; cases h
  | cons u us ih =>
    intro e h
    unfold resolveAll at h
    cases h1 : resolve maps u.phase u.ref with
    | error e' => rw [h1] at h; cases h; exact ⟨u, List.mem_cons_self .., h1⟩
    | ok m =>
      rw [h1] at h
      cases h2 : resolveAll maps us with
      | error e' =>
        rw [h2] at h; cases h
        obtain ⟨u', hu, h3⟩ := ih h2
        exact ⟨u', List.mem_cons_of_mem _ hu, h3⟩
      | ok rs' => rw [h2] at h; cases h

theorem attempt_built {maps : Maps} {b : Builder} {form : Form} {rs : List Read}
    (h : attempt maps b = .built form rs) :
    resolveAll maps b.uses = .ok rs ∧ form = formOf b.style (rs.map Read.shape) ∧
      b.accepts (rs.map Read.shape) = true := by
  unfold attempt at h
  cases h1 : resolveAll maps b.uses with
  | error e => rw [h1] at h; cases e <;> cases h
  | ok rs' =>
    rw [h1] at h
    simp only at h
    by_cases ha : b.accepts (rs'.map Read.shape) = true
    · rw [if_pos ha] at h; cases h; exact ⟨rfl, rfl, ha⟩
    · rw [if_neg ha] at h; cases h

theorem attempt_retry {maps : Maps} {b : Builder} {m : Name} (h : attempt maps b = .retry m) :
    ∃ u ∈ b.uses, u.ref.target = some m ∧ ∀ t, u.ref.Usable t → lookup maps t m = none := by
  unfold attempt at h
  cases h1 : resolveAll maps b.uses with
  | error e =>
    rw [h1] at h
    cases e with
    | wrongPhase n w p => cases h
    | notFound n =>
      cases h
      obtain ⟨u, hu, h2⟩ := resolveAll_error h1
      exact ⟨u, hu, resolve_notFound h2⟩
  | ok rs' =>
    rw [h1] at h
    simp only at h
    by_cases ha : b.accepts (rs'.map Read.shape) = true
    · rw [if_pos ha] at h; cases h
    · rw [if_neg ha] at h; cases h

end Verif.Params
