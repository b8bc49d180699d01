import Mathlib.Tactic.Linarith
import Verif.Props.Scenario

/-!
# Scenario domains from explicit combinations (C54, C07)
-/

namespace Verif.Scenario

/-! ## Specification -/

/-- What one entry of a combination means for a group: an index is itself, a label is its first position. -/
def Resolves (g : Group) : LabelOrIndex → Nat → Prop
  | .index j, i => i = j
  | .label l, i => ∃ ls, g.labels = some ls ∧ ls[i]? = some l ∧ ∀ j, j < i → ls[j]? ≠ some l

/-- The label reported for index `i` of a group. -/
def LabelOf (g : Group) (i : Nat) (s : String) : Prop :=
  (g.labels = none ∧ s = toString i) ∨ ∃ ls, g.labels = some ls ∧ ls[i]? = some s

/-- A user supplied combination and the schema indices it stands for. -/
def ResolvesTo (groups : List Group) (comb : List LabelOrIndex) (c : List Nat) : Prop :=
  c.length = groups.length ∧ ∀ (k : Nat) (g : Group), groups[k]? = some g →
    ∃ x i, comb[k]? = some x ∧ c[k]? = some i ∧ Resolves g x i

/-! ## Lemmas -/

theorem mem_sortedInsert (a x : Nat) (l : List Nat) : x ∈ sortedInsert a l ↔ x = a ∨ x ∈ l := by
  induction l with
  | nil => simp [sortedInsert]
  | cons y ys ih =>
    simp only [sortedInsert]
    split_ifs with h1 h2
    · simp
    · subst h2; simp
    · simp only [List.mem_cons, ih]; tauto

theorem pairwise_sortedInsert (a : Nat) (l : List Nat) (h : l.Pairwise (· < ·)) :
    (sortedInsert a l).Pairwise (· < ·) := by
  induction l with
  | nil => simp [sortedInsert]
  | cons y ys ih =>
    rw [List.pairwise_cons] at h
    simp only [sortedInsert]
    split_ifs with h1 h2
    · rw [List.pairwise_cons]
      refine ⟨fun z hz => ?_, List.pairwise_cons.2 h⟩
      rcases List.mem_cons.1 hz with rfl | hz
      · exact h1
      · exact lt_trans h1 (h.1 z hz)
    · exact List.pairwise_cons.2 h
    · rw [List.pairwise_cons]
      refine ⟨fun z hz => ?_, ih h.2⟩
      rcases (mem_sortedInsert a z ys).1 hz with rfl | hz
      · omega
      · exact h.1 z hz

theorem combinationMapFor_spec (g : Nat) (cs : List (List Nat)) (m : List Nat)
    (h : combinationMapFor g cs = some m) :
    m.Pairwise (· < ·) ∧ ∀ i, i ∈ m ↔ ∃ c ∈ cs, c[g]? = some i := by
  induction cs generalizing m with
  | nil => simp only [combinationMapFor, Option.some.injEq] at h; subst h; simp
  | cons c cs ih =>
    simp only [combinationMapFor] at h
    cases h1 : c[g]? with
    | none => simp [h1] at h
    | some i =>
      cases h2 : combinationMapFor g cs with
      | none => simp [h1, h2] at h
      | some is =>
        simp only [h1, h2, Option.some.injEq] at h
        subst h
        obtain ⟨ha, hb⟩ := ih is h2
        refine ⟨pairwise_sortedInsert _ _ ha, fun j => ?_⟩
        rw [mem_sortedInsert, hb]
        simp only [List.mem_cons, exists_eq_or_imp, h1, Option.some.injEq]
        constructor
        · rintro (rfl | h)
          · exact Or.inl rfl
          · exact Or.inr h
        · rintro (rfl | h)
          · exact Or.inl rfl
          · exact Or.inr h

theorem combinationMapFor_some (g : Nat) (cs : List (List Nat)) (h : ∀ c ∈ cs, g < c.length) :
    ∃ m, combinationMapFor g cs = some m := by
  induction cs with
  | nil => exact ⟨[], rfl⟩
  | cons c cs ih =>
    obtain ⟨m, hm⟩ := ih (fun c hc => h c (by simp [hc]))
    have hlt : g < c.length := h c (by simp)
    have hc := List.getElem?_eq_getElem hlt
    exact ⟨sortedInsert c[g] m, by simp [combinationMapFor, hc, hm]⟩

theorem mapE_all {α β ε : Type} (f : α → Except ε β) (l : List α) (h : ∀ a ∈ l, ∃ b, f a = .ok b) :
    ∃ out, mapE f l = .ok out := by
  induction l with
  | nil => exact ⟨[], rfl⟩
  | cons a as ih =>
    obtain ⟨b, hb⟩ := h a (by simp)
    obtain ⟨bs, hbs⟩ := ih (fun a ha => h a (by simp [ha]))
    exact ⟨b :: bs, by simp [mapE, hb, hbs]⟩

theorem labelPosition_resolves (g : Group) (l : String) (i : Nat) (h : g.labelPosition l = .ok i) :
    Resolves g (.label l) i := by
  unfold Group.labelPosition at h
  cases hl : g.labels with
  | none => simp [hl] at h
  | some ls =>
    simp only [hl] at h
    cases hp : position l ls with
    | none => simp [hp] at h
    | some j =>
      simp only [hp, Except.ok.injEq] at h
      subst h
      refine ⟨ls, hl, position_some _ _ _ hp, fun k hk => ?_⟩
      exact position_first l ls j hp k hk

theorem labelPosition_ok (g : Group) (l : String) (ls : List String) (hl : g.labels = some ls) (hm : l ∈ ls) :
    ∃ i, g.labelPosition l = .ok i := by
  unfold Group.labelPosition
  simp only [hl]
  cases hp : position l ls with
  | none => exact absurd hm ((position_eq_none l ls).1 hp)
  | some i => exact ⟨i, rfl⟩

theorem resolveCombination_spec (groups : List Group) (comb : List LabelOrIndex) (c : List Nat)
    (h : resolveCombination groups comb = .ok c) (hlen : groups.length ≤ c.length) : ResolvesTo groups comb c := by
  unfold resolveCombination at h
  obtain ⟨h1, h2⟩ := mapE_ok _ _ _ h
  rw [List.length_zip] at h1
  refine ⟨by omega, fun k g hg => ?_⟩
  have hk : k < groups.length := (List.getElem?_eq_some_iff.1 hg).1
  have hkc : k < comb.length := by omega
  have hx := List.getElem?_eq_getElem hkc
  obtain ⟨i, hi, hci⟩ := h2 k (comb[k], g) (by rw [List.getElem?_zip_eq_some]; exact ⟨hx, hg⟩)
  refine ⟨comb[k], i, hx, hci, ?_⟩
  cases hc : comb[k] with
  | index j => simp only [hc, Except.ok.injEq] at hi; exact hi.symm
  | label l => simp only [hc] at hi; exact labelPosition_resolves g l i hi

theorem labelsFor_spec (groups : List Group) (c : List Nat) (ls : List String)
    (h : labelsFor groups c = .ok ls) (hlen : c.length = groups.length) :
    ls.length = groups.length ∧ ∀ (k : Nat) (g : Group), groups[k]? = some g →
      ∃ i s, c[k]? = some i ∧ ls[k]? = some s ∧ LabelOf g i s := by
  induction groups generalizing c ls with
  | nil =>
    cases c with
    | nil => simp only [labelsFor, Except.ok.injEq] at h; subst h; simp
    | cons _ _ => simp at hlen
  | cons g gs ih =>
    cases c with
    | nil => simp at hlen
    | cons i is =>
      simp only [labelsFor] at h
      cases h1 : g.labelFor i with
      | error e => simp [h1] at h
      | ok l =>
        cases h2 : labelsFor gs is with
        | error e => simp [h1, h2] at h
        | ok ls' =>
          simp only [h1, h2, Except.ok.injEq] at h
          subst h
          obtain ⟨ha, hb⟩ := ih is ls' h2 (by simpa using hlen)
          refine ⟨by simp [ha], fun k g' hg' => ?_⟩
          cases k with
          | zero =>
            simp only [List.getElem?_cons_zero, Option.some.injEq] at hg'
            subst hg'
            refine ⟨i, l, rfl, rfl, ?_⟩
            unfold Group.labelFor at h1
            cases hl : g.labels with
            | none => simp only [hl, Except.ok.injEq] at h1; exact Or.inl ⟨hl, h1.symm⟩
            | some labels =>
              simp only [hl] at h1
              cases hq : labels[i]? with
              | none => simp [hq] at h1
              | some s => simp only [hq, Except.ok.injEq] at h1; subst h1; exact Or.inr ⟨labels, hl, hq⟩
          | succ k => simpa using hb k g' (by simpa using hg')

/-- What the combination loop produces. -/
theorem combinationLoop_spec (groups : List Group) (map : List (Option (List Nat))) (cs : List (List Nat)) :
    ∀ (acc out : List Index), combinationLoop groups map cs acc = .ok out →
    acc.map (·.simulationId) = List.range acc.length →
    ∃ new, out = acc ++ new ∧ out.map (·.simulationId) = List.range out.length ∧
      new.map Index.schemaIndices = cs ∧
      (∀ s ∈ new, labelsFor groups s.schemaIndices = .ok s.labels ∧
        s.schema = some (schemaId (groups.map (·.size)) s.schemaIndices 1, s.schemaIndices)) := by
  induction cs with
  | nil =>
    intro acc out h hacc
    simp only [combinationLoop, Except.ok.injEq] at h
    subst h
    exact ⟨[], by simp, hacc, rfl, by simp⟩
  | cons c cs ih =>
    intro acc out h hacc
    simp only [combinationLoop] at h
    cases h1 : combinationSim map c with
    | error e => simp [h1] at h
    | ok sim =>
      cases h2 : labelsFor groups c with
      | error e => simp [h1, h2] at h
      | ok ls =>
        simp only [h1, h2] at h
        obtain ⟨new, ha, hb, hc, hd⟩ := ih _ out h (by simp [hacc, List.range_succ])
        refine ⟨⟨acc.length, sim, some (schemaId (groups.map (·.size)) c 1, c), ls⟩ :: new, by simp [ha], hb, ?_, ?_⟩
        · simp [Index.schemaIndices, hc]
        · intro s hs
          rcases List.mem_cons.1 hs with rfl | hs
          · exact ⟨h2, rfl⟩
          · exact hd s hs

theorem build_combinations_eq (groups : List Group) (hne : groups ≠ []) (combs : List (List LabelOrIndex)) :
    (DomainBuilder.mk groups (some combs)).build =
      if groups.any (fun g => g.subset.isSome) then .error .combinationsAndSlices
      else buildCombinations groups combs := by
  cases groups with
  | nil => exact absurd rfl hne
  | cons g gs => rfl

/-! ## C54 -/

/-- C54: a domain accepted with explicit combinations runs exactly the combinations given: one scenario per combination,
in the order given, with simulation ids `0..n-1`; each entry is the index or the first position of the label given; the
labels reported are those of the group; and the list of simulated indices of each group is strictly increasing and holds
exactly the indices some combination uses. -/
theorem C54_combination_domain (groups : List Group) (hne : groups ≠ []) (combs : List (List LabelOrIndex))
    (hc : combs ≠ []) (d : Domain) (h : (DomainBuilder.mk groups (some combs)).build = .ok d) :
    d.groups = groups ∧
    d.indices.map (·.simulationId) = List.range combs.length ∧
    List.Forall₂ (fun s comb => ResolvesTo groups comb s.schemaIndices) d.indices combs ∧
    (∀ s ∈ d.indices, s.labels.length = groups.length ∧ ∀ (k : Nat) (g : Group), groups[k]? = some g →
      ∃ i l, s.schemaIndexForGroup k = some i ∧ s.labels[k]? = some l ∧ LabelOf g i l) ∧
    (∀ k, k < groups.length → ∃ m, d.scenarioMap[k]? = some (some m) ∧ m.Pairwise (· < ·) ∧
      ∀ i, i ∈ m ↔ ∃ s ∈ d.indices, s.schemaIndexForGroup k = some i) := by
  rw [build_combinations_eq groups hne] at h
  split_ifs at h
  unfold buildCombinations at h
  cases h1 : mapE (resolveCombination groups) combs with
  | error e => simp [h1] at h
  | ok cs =>
    cases h2 : combinationMap groups.length cs with
    | error e => simp [h1, h2] at h
    | ok map =>
      cases h3 : combinationLoop groups map cs [] with
      | error e => simp [h1, h2, h3] at h
      | ok out =>
        simp only [h1, h2, h3, Except.ok.injEq] at h
        subst h
        obtain ⟨new, ha, hb, hs, hl⟩ := combinationLoop_spec groups map cs [] out h3 (by simp)
        simp only [List.nil_append] at ha
        subst ha
        obtain ⟨hlen, hres⟩ := mapE_ok _ _ _ h1
        obtain ⟨_, hm⟩ := mapE_ok _ _ _ h2
        have houtlen : out.length = combs.length := by
          rw [← hlen, ← hs, List.length_map]
        have hcne : cs ≠ [] := by
          intro he; rw [he] at hlen; exact hc (List.length_eq_zero_iff.1 hlen.symm)
        have hcl : ∀ c ∈ cs, groups.length ≤ c.length := by
          intro c hcm
          by_contra hlt
          push Not at hlt
          obtain ⟨b, hb', _⟩ := hm c.length c.length (by rw [List.getElem?_range hlt])
          cases hq : combinationMapFor c.length cs with
          | none => simp [hq] at hb'
          | some m => exact absurd (combinationMapFor_length _ cs m hq c hcm) (lt_irrefl _)
        have hF : List.Forall₂ (fun s comb => ResolvesTo groups comb s.schemaIndices) out combs := by
          rw [List.forall₂_iff_get]
          refine ⟨houtlen, fun k hk hk' => ?_⟩
          obtain ⟨c, hc1, hc2⟩ := hres k _ (List.getElem?_eq_getElem hk')
          have hsk : cs[k]? = some (out[k]).schemaIndices := by
            rw [← hs, List.getElem?_map, List.getElem?_eq_getElem hk]; rfl
          rw [hsk] at hc2
          cases hc2
          exact resolveCombination_spec groups _ _ hc1 (hcl _ (List.mem_of_getElem? hsk))
        have hmem : ∀ s ∈ out, s.schemaIndices.length = groups.length := by
          intro s hsm
          obtain ⟨k, hk⟩ := List.mem_iff_getElem?.1 hsm
          have hk1 := (List.getElem?_eq_some_iff.1 hk).1
          have := (List.forall₂_iff_get.1 hF).2 k hk1 (by omega)
          have he : out[k] = s := (List.getElem?_eq_some_iff.1 hk).2
          rw [← he]
          exact this.1
        refine ⟨rfl, by rw [hb, houtlen], hF, ?_, ?_⟩
        · intro s hsm
          obtain ⟨ha, hb⟩ := labelsFor_spec groups _ _ (hl s hsm).1 (hmem s hsm)
          refine ⟨ha, fun k g hg => ?_⟩
          obtain ⟨i, l, hi, hl', hL⟩ := hb k g hg
          exact ⟨i, l, by rw [schemaIndexForGroup_eq]; exact hi, hl', hL⟩
        · intro k hk
          obtain ⟨b, hb', hmap⟩ := hm k k (by rw [List.getElem?_range hk])
          cases hq : combinationMapFor k cs with
          | none => simp [hq] at hb'
          | some m =>
            obtain ⟨hp, hi⟩ := combinationMapFor_spec k cs m hq
            have hmne : m ≠ [] := by
              intro he
              subst he
              cases cs with
              | nil => exact hcne rfl
              | cons c cs =>
                have hk2 : k < c.length := lt_of_lt_of_le hk (hcl c (by simp))
                have := (hi c[k]).2 ⟨c, by simp, List.getElem?_eq_getElem hk2⟩
                simp at this
            have hbe : b = some m := by
              cases m with
              | nil => exact absurd rfl hmne
              | cons x xs => simp only [hq, Except.ok.injEq] at hb'; exact hb'.symm
            subst hbe
            refine ⟨m, hmap, hp, fun i => ?_⟩
            rw [hi, ← hs]
            simp only [List.mem_map]
            constructor
            · rintro ⟨c, ⟨s, hs1, rfl⟩, hci⟩
              exact ⟨s, hs1, by rw [schemaIndexForGroup_eq]; exact hci⟩
            · rintro ⟨s, hs1, hsi⟩
              exact ⟨_, ⟨s, hs1, rfl⟩, by rw [schemaIndexForGroup_eq] at hsi; exact hsi⟩

/-- An entry of a combination that a group accepts. -/
def EntryOk (g : Group) : LabelOrIndex → Prop
  | .index j => ∀ ls, g.labels = some ls → j < ls.length
  | .label l => ∃ ls, g.labels = some ls ∧ l ∈ ls

theorem mem_of_position {α : Type} [DecidableEq α] (a : α) (l : List α) (h : a ∈ l) : ∃ i, position a l = some i := by
  cases hp : position a l with
  | none => exact absurd h ((position_eq_none a l).1 hp)
  | some i => exact ⟨i, rfl⟩

theorem labelsFor_all (groups : List Group) (c : List Nat)
    (h : ∀ (k : Nat) (g : Group) (i : Nat), groups[k]? = some g → c[k]? = some i →
      ∀ ls, g.labels = some ls → i < ls.length) : ∃ ls, labelsFor groups c = .ok ls := by
  induction groups generalizing c with
  | nil => exact ⟨[], by simp [labelsFor]⟩
  | cons g gs ih =>
    cases c with
    | nil => exact ⟨[], by simp [labelsFor]⟩
    | cons i is =>
      obtain ⟨ls, hls⟩ := ih is (fun k g i hg hi => h (k + 1) g i (by simpa using hg) (by simpa using hi))
      have h0 := h 0 g i rfl rfl
      cases hl : g.labels with
      | none => exact ⟨toString i :: ls, by simp [labelsFor, Group.labelFor, hl, hls]⟩
      | some labels =>
        have hi := h0 labels hl
        exact ⟨labels[i] :: ls, by simp [labelsFor, Group.labelFor, hl, hls, List.getElem?_eq_getElem hi]⟩

/-- C54, acceptance: combinations with an entry for every group, each a known label or (where the group has labels) an
index below their number, are accepted; the only other requirement is that no group has a subset. -/
theorem C54_accepted (groups : List Group) (hne : groups ≠ []) (hsub : ∀ g ∈ groups, g.subset = none)
    (combs : List (List LabelOrIndex))
    (h : ∀ comb ∈ combs, groups.length ≤ comb.length ∧
      ∀ (k : Nat) (g : Group) (x : LabelOrIndex), groups[k]? = some g → comb[k]? = some x → EntryOk g x) :
    ∃ d, (DomainBuilder.mk groups (some combs)).build = .ok d := by
  rw [build_combinations_eq groups hne, if_neg (by
    rw [Bool.not_eq_true, List.any_eq_false]; intro g hg; simp [hsub g hg])]
  obtain ⟨cs, hcs⟩ := mapE_all (resolveCombination groups) combs (by
    intro comb hcomb
    refine mapE_all _ _ ?_
    rintro ⟨x, g⟩ hxg
    obtain ⟨k, hk⟩ := List.mem_iff_getElem?.1 hxg
    rw [List.getElem?_zip_eq_some] at hk
    have := (h comb hcomb).2 k g x hk.2 hk.1
    cases x with
    | index i => exact ⟨i, rfl⟩
    | label l => obtain ⟨ls, h1, h2⟩ := this; exact labelPosition_ok g l ls h1 h2)
  obtain ⟨hlen, hres⟩ := mapE_ok _ _ _ hcs
  -- every resolved combination is long enough and in range of the labels
  have hgood : ∀ c ∈ cs, groups.length ≤ c.length ∧ ∀ (k : Nat) (g : Group) (i : Nat), groups[k]? = some g →
      c[k]? = some i → ∀ ls, g.labels = some ls → i < ls.length := by
    intro c hc
    obtain ⟨k, hk⟩ := List.mem_iff_getElem?.1 hc
    have hk1 := (List.getElem?_eq_some_iff.1 hk).1
    have hkc : k < combs.length := by omega
    obtain ⟨c', hc1, hc2⟩ := hres k _ (List.getElem?_eq_getElem hkc)
    rw [hk] at hc2
    cases hc2
    have hcl : groups.length ≤ c.length := by
      have := (mapE_ok _ _ _ hc1).1
      rw [List.length_zip] at this
      have := (h _ (List.getElem_mem hkc)).1
      omega
    refine ⟨hcl, fun j g i hg hi ls hls => ?_⟩
    obtain ⟨_, hr⟩ := resolveCombination_spec groups _ _ hc1 hcl
    obtain ⟨x, i', hx, hi', hR⟩ := hr j g hg
    rw [hi] at hi'
    cases hi'
    have hE := (h _ (List.getElem_mem hkc)).2 j g x hg hx
    cases x with
    | index i2 => simp only [Resolves] at hR; subst hR; exact hE ls hls
    | label l =>
      obtain ⟨ls', h1, h2, _⟩ := hR
      rw [hls] at h1
      cases h1
      exact (List.getElem?_eq_some_iff.1 h2).1
  obtain ⟨map, hmap⟩ : ∃ map, combinationMap groups.length cs = .ok map := by
    refine mapE_all _ _ ?_
    intro g hg
    obtain ⟨m, hm⟩ := combinationMapFor_some g cs (fun c hc =>
      lt_of_lt_of_le (List.mem_range.1 hg) (hgood c hc).1)
    cases m with
    | nil => exact ⟨none, by rw [hm]⟩
    | cons x xs => exact ⟨some (x :: xs), by rw [hm]⟩
  have hsim : ∀ c ∈ cs, ∃ sim, combinationSim map c = .ok sim := by
    intro c hc
    refine mapE_all _ _ ?_
    rintro ⟨om, i⟩ hxi
    obtain ⟨k, hk⟩ := List.mem_iff_getElem?.1 hxi
    rw [List.getElem?_zip_eq_some] at hk
    cases om with
    | none => exact ⟨i, rfl⟩
    | some m =>
      obtain ⟨hml, hm⟩ := mapE_ok _ _ _ hmap
      have hkm := (List.getElem?_eq_some_iff.1 hk.1).1
      rw [List.length_range] at hml
      obtain ⟨b, hb, hb2⟩ := hm k k (by rw [List.getElem?_range (by omega)])
      rw [hk.1] at hb2
      cases hb2
      cases hq : combinationMapFor k cs with
      | none => simp [hq] at hb
      | some m' =>
        have hme : m' = m := by
          cases m' with
          | nil => simp [hq] at hb
          | cons x xs => simp only [hq, Except.ok.injEq, Option.some.injEq] at hb; exact hb
        subst hme
        obtain ⟨j, hj⟩ := mem_of_position i m' (((combinationMapFor_spec k cs m' hq).2 i).2 ⟨c, hc, hk.2⟩)
        exact ⟨j, by simp [hj]⟩
  have hloop : ∀ (l : List (List Nat)), (∀ c ∈ l, c ∈ cs) → ∀ acc, ∃ out, combinationLoop groups map l acc = .ok out := by
    intro l
    induction l with
    | nil => intro _ acc; exact ⟨acc, rfl⟩
    | cons c l ih =>
      intro hl acc
      obtain ⟨sim, hs⟩ := hsim c (hl c (by simp))
      obtain ⟨ls, hls⟩ := labelsFor_all groups c (hgood c (hl c (by simp))).2
      obtain ⟨out, ho⟩ := ih (fun c hc => hl c (by simp [hc]))
        (acc ++ [⟨acc.length, sim, some (schemaId (groups.map (·.size)) c 1, c), ls⟩])
      exact ⟨out, by simp only [combinationLoop, hs, hls, ho]⟩
  obtain ⟨out, hout⟩ := hloop cs (fun _ h => h) []
  exact ⟨⟨out, groups, map⟩, by simp only [buildCombinations, hcs, hmap, hout]⟩

example : ∃ d, (DomainBuilder.mk [⟨"A", 3, none, some ["x", "y", "z"]⟩, ⟨"B", 4, none, none⟩]
      (some [[.label "z", .index 3], [.label "x", .index 1], [.index 2, .index 1]])).build = .ok d ∧
    d.indices.map Index.schemaIndices = [[2, 3], [0, 1], [2, 1]] ∧
    d.indices.map (·.simulationIndices) = [[1, 1], [0, 0], [1, 0]] ∧
    d.scenarioMap = [some [0, 2], some [1, 3]] ∧
    d.indices.map (·.labels) = [["z", "3"], ["x", "1"], ["z", "1"]] :=
  ⟨_, rfl, by decide, by decide, by decide, by decide⟩

/-- C54 refuted in one respect: an index outside its group is accepted when the group has no labels. -/
theorem C54_out_of_range_accepted_refuted :
    ∃ (g : Group) (i : Nat) (d : Domain), g.size ≤ i ∧
      (DomainBuilder.mk [g] (some [[.index i]])).build = .ok d ∧
      d.indices.map Index.schemaIndices = [[i]] :=
  ⟨⟨"A", 2, none, none⟩, 5, _, by decide, rfl, by decide⟩

/-! ## C07 -/

theorem schemaId_mul (ns c : List Nat) (m : Nat) : schemaId ns c m = m * schemaId ns c 1 := by
  induction ns generalizing c m with
  | nil => simp [schemaId]
  | cons n ns ih =>
    cases c with
    | nil => simp [schemaId]
    | cons i is =>
      simp only [schemaId]
      rw [ih is (m * n), ih is (1 * n)]
      ring

theorem schemaId_lt (ns c : List Nat) (h : List.Forall₂ (· < ·) c ns) : schemaId ns c 1 < prod ns := by
  induction h with
  | nil => simp [schemaId, prod]
  | @cons i n is ns h1 _ ih =>
    simp only [schemaId, prod, Nat.one_mul, Nat.mul_one]
    rw [schemaId_mul]
    calc i + n * schemaId ns is 1 < n + n * schemaId ns is 1 := by omega
      _ = n * (schemaId ns is 1 + 1) := by ring
      _ ≤ n * prod ns := Nat.mul_le_mul_left _ ih

theorem schemaId_inj (ns : List Nat) : ∀ (c c' : List Nat), List.Forall₂ (· < ·) c ns → List.Forall₂ (· < ·) c' ns →
    schemaId ns c 1 = schemaId ns c' 1 → c = c' := by
  induction ns with
  | nil => intro c c' h h' _; cases h; cases h'; rfl
  | cons n ns ih =>
    intro c c' h h' he
    cases h with
    | @cons i _ is _ h1 h2 =>
      cases h' with
      | @cons j _ js _ h1' h2' =>
        simp only [schemaId, Nat.one_mul, Nat.mul_one] at he
        rw [schemaId_mul ns is n, schemaId_mul ns js n] at he
        have hmod : i = j := by
          have := congrArg (· % n) he
          simpa [Nat.add_mul_mod_self_left, Nat.mod_eq_of_lt h1, Nat.mod_eq_of_lt h1'] using this
        subst hmod
        have hpos : 0 < n := by omega
        have : schemaId ns is 1 = schemaId ns js 1 := Nat.eq_of_mul_eq_mul_left hpos (by omega)
        rw [ih is js h2 h2' this]

/-- C07, the part that holds for explicit combinations: the ids recorded are below the size of the full domain and two
scenarios with in-range indices get the same id only if they are the same scenario. -/
theorem C07_combination_ids_unique (groups : List Group) (hne : groups ≠ []) (combs : List (List LabelOrIndex))
    (d : Domain) (h : (DomainBuilder.mk groups (some combs)).build = .ok d) (s s' : Index)
    (hs : s ∈ d.indices) (hs' : s' ∈ d.indices)
    (hr : List.Forall₂ (· < ·) s.schemaIndices (groups.map (·.size)))
    (hr' : List.Forall₂ (· < ·) s'.schemaIndices (groups.map (·.size))) :
    ∃ i i', s.schema = some (i, s.schemaIndices) ∧ s'.schema = some (i', s'.schemaIndices) ∧
      i < prod (groups.map (·.size)) ∧ (i = i' ↔ s.schemaIndices = s'.schemaIndices) := by
  rw [build_combinations_eq groups hne] at h
  split_ifs at h
  unfold buildCombinations at h
  cases h1 : mapE (resolveCombination groups) combs with
  | error e => simp [h1] at h
  | ok cs =>
    cases h2 : combinationMap groups.length cs with
    | error e => simp [h1, h2] at h
    | ok map =>
      cases h3 : combinationLoop groups map cs [] with
      | error e => simp [h1, h2, h3] at h
      | ok out =>
        simp only [h1, h2, h3, Except.ok.injEq] at h
        subst h
        obtain ⟨new, ha, _, _, hl⟩ := combinationLoop_spec groups map cs [] out h3 (by simp)
        simp only [List.nil_append] at ha
        subst ha
        refine ⟨_, _, (hl s hs).2, (hl s' hs').2, schemaId_lt _ _ hr, ?_, fun he => by rw [he]⟩
        exact schemaId_inj _ _ _ hr hr'

theorem cart_rank (ns c : List Nat) (h : List.Forall₂ (· < ·) c ns) :
    rank ns c < prod ns ∧ (cart ns)[rank ns c]? = some c := by
  have key : rank ns c < prod ns ∧ decode ns (rank ns c) = c := by
    induction h with
    | nil => simp [rank, prod, decode, decodeRev]
    | @cons i n is ns h1 _ ih =>
      obtain ⟨hlt, hd⟩ := ih
      simp only [rank, prod]
      have hp : 0 < prod ns := by omega
      constructor
      · calc i * prod ns + rank ns is < i * prod ns + prod ns := by omega
          _ = (i + 1) * prod ns := by ring
          _ ≤ n * prod ns := Nat.mul_le_mul_right _ h1
      · rw [decode_cons, decode_add_mul, hd, Nat.add_comm, Nat.add_mul_div_right _ _ hp, Nat.div_eq_of_lt hlt,
          Nat.zero_add, Nat.mod_eq_of_lt h1]
  exact ⟨key.1, by rw [cart_getElem ns _ key.1, key.2]⟩

theorem rank_of_cart (ns c : List Nat) (i : Nat) (h : (cart ns)[i]? = some c) : i = rank ns c := by
  have hc : List.Forall₂ (· < ·) c ns := (mem_cart ns c).1 (List.mem_of_getElem? h)
  obtain ⟨hlt, hr⟩ := cart_rank ns c hc
  have h1 := (List.getElem?_eq_some_iff.1 h)
  have h2 := (List.getElem?_eq_some_iff.1 hr)
  obtain ⟨l1, e1⟩ := h1
  obtain ⟨l2, e2⟩ := h2
  exact (List.Nodup.getElem_inj_iff (nodup_cart ns)).1 (e1.trans e2.symm)

theorem all_one (ns c : List Nat) (h : List.Forall₂ (· < ·) c ns) (h1 : ∀ n ∈ ns, n = 1) :
    prod ns = 1 ∧ rank ns c = 0 ∧ schemaId ns c 1 = 0 := by
  induction h with
  | nil => simp [prod, rank, schemaId]
  | @cons i n is ns hi _ ih =>
    obtain ⟨a, b, c⟩ := ih (fun n hn => h1 n (by simp [hn]))
    have hn : n = 1 := h1 n (by simp)
    subst hn
    have : i = 0 := by omega
    subst this
    simp [prod, rank, schemaId, a, b, c]

theorem rank_eq_schemaId (ns c : List Nat) (h : List.Forall₂ (· < ·) c ns)
    (h1 : ns.Pairwise (fun a b => a = 1 ∨ b = 1)) : rank ns c = schemaId ns c 1 := by
  induction h with
  | nil => rfl
  | @cons i n is ns hi hrest ih =>
    rw [List.pairwise_cons] at h1
    simp only [rank, schemaId, Nat.mul_one, Nat.one_mul]
    rw [schemaId_mul]
    by_cases hn : n = 1
    · subst hn
      have : i = 0 := by omega
      subst this
      rw [ih h1.2]; ring
    · have hall : ∀ m ∈ ns, m = 1 := fun m hm => (h1.1 m hm).resolve_left hn
      obtain ⟨a, b, c⟩ := all_one ns is hrest hall
      rw [a, b, c]; ring

/-- C07 partial: when at most one group has more than one member, a scenario selected by subsets and the same scenario
selected as an explicit combination record the same schema id, through the two routes of the builder. Missing: domains
with two or more groups of size greater than one, where the two routes use opposite radix orders (`C07_schema_id_refuted`). -/
theorem C07_same_id_partial (groups groups' : List Group) (hne : groups' ≠ []) (hwf : ∀ g ∈ groups, g.WF)
    (hsz : groups.map (·.size) = groups'.map (·.size))
    (hone : (groups.map (·.size)).Pairwise (fun a b => a = 1 ∨ b = 1))
    (combs : List (List LabelOrIndex)) (d d' : Domain)
    (h : buildSubset groups = .ok d) (h' : (DomainBuilder.mk groups' (some combs)).build = .ok d')
    (s s' : Index) (hs : s ∈ d.indices) (hs' : s' ∈ d'.indices) (he : s.schemaIndices = s'.schemaIndices)
    (i i' : Nat) (c c' : List Nat) (hi : s.schema = some (i, c)) (hi' : s'.schema = some (i', c')) : i = i' := by
  obtain ⟨d₀, h1, _, _, _, h5⟩ := C05_subset_domain groups hwf
  rw [h] at h1; cases h1
  have hc := h5 s hs i c hi
  have hF : List.Forall₂ (· < ·) c (groups.map (·.size)) := (mem_cart _ _).1 (List.mem_of_getElem? hc)
  have hcc : s.schemaIndices = c := by simp [Index.schemaIndices, hi]
  have hcc' : s'.schemaIndices = c' := by simp [Index.schemaIndices, hi']
  have hsame : c = c' := by rw [← hcc, ← hcc', he]
  subst hsame
  obtain ⟨j, j', hj, hj', _, _⟩ := C07_combination_ids_unique groups' hne combs d' h' s' s' hs' hs'
    (by rw [hcc', ← hsz]; exact hF) (by rw [hcc', ← hsz]; exact hF)
  rw [rank_of_cart _ _ _ hc, rank_eq_schemaId _ _ hF hone]
  rw [build_combinations_eq groups' hne] at h'
  split_ifs at h'
  unfold buildCombinations at h'
  cases h1 : mapE (resolveCombination groups') combs with
  | error e => simp [h1] at h'
  | ok cs =>
    cases h2 : combinationMap groups'.length cs with
    | error e => simp [h1, h2] at h'
    | ok map =>
      cases h3 : combinationLoop groups' map cs [] with
      | error e => simp [h1, h2, h3] at h'
      | ok out =>
        simp only [h1, h2, h3, Except.ok.injEq] at h'
        subst h'
        obtain ⟨new, ha, _, _, hl⟩ := combinationLoop_spec groups' map cs [] out h3 (by simp)
        simp only [List.nil_append] at ha
        subst ha
        have := (hl s' hs').2
        rw [hi', hcc'] at this
        simp only [Option.some.injEq, Prod.mk.injEq] at this
        rw [this.1, hsz]

example : ∃ d d', buildSubset [⟨"A", 1, none, none⟩, ⟨"B", 5, some (.slice 2 4), none⟩] = .ok d ∧
    (DomainBuilder.mk [⟨"A", 1, none, none⟩, ⟨"B", 5, none, none⟩] (some [[.index 0, .index 3]])).build = .ok d' ∧
    ([1, 5] : List Nat).Pairwise (fun a b => a = 1 ∨ b = 1) ∧
    d.indices.map (·.schema) = [some (2, [0, 2]), some (3, [0, 3])] ∧
    d'.indices.map (·.schema) = [some (3, [0, 3])] :=
  ⟨_, _, rfl, rfl, by simp, by decide, by decide⟩

/-! ## C55 labels -/

/-- C55 refuted: the printed label of a scenario (group labels joined with `-`) need not identify it. Two groups with
distinct labels each give two scenarios of one accepted domain the same printed label. -/
theorem C55_label_not_unique_refuted :
    ∃ (d : Domain) (s s' : Index),
      (DomainBuilder.mk [⟨"A", 2, none, some ["x", "x-y"]⟩, ⟨"B", 2, none, some ["y-z", "z"]⟩] none).build = .ok d ∧
      s ∈ d.indices ∧ s' ∈ d.indices ∧ s.schemaIndices ≠ s'.schemaIndices ∧
      "-".intercalate s.labels = "-".intercalate s'.labels :=
  ⟨_, ⟨0, [0, 0], none, ["x", "y-z"]⟩, ⟨3, [1, 1], none, ["x-y", "z"]⟩, rfl, by decide, by decide, by decide, by decide⟩

/-- Every group's labels are distinct and free of the separator. -/
def CleanLabels (g : Group) : Prop := ∀ ls, g.labels = some ls → ls.Nodup ∧ ∀ l ∈ ls, '-' ∉ l.toList

theorem natToList (n : Nat) : (toString n).toList = Nat.toDigits 10 n := by
  simp [toString, Nat.repr]

theorem labelOf_inj (g : Group) (hg : CleanLabels g) (i j : Nat) (s : String) (hi : LabelOf g i s) (hj : LabelOf g j s) :
    i = j := by
  rcases hi with ⟨h1, h2⟩ | ⟨ls, h1, h2⟩ <;> rcases hj with ⟨h3, h4⟩ | ⟨ls', h3, h4⟩
  · have : (toString i).toList = (toString j).toList := by rw [← h2, ← h4]
    rw [natToList, natToList] at this
    have h5 := congrArg (fun l => Nat.ofDigitChars 10 l 0) this
    simpa using h5
  · rw [h1] at h3; simp at h3
  · rw [h1] at h3; simp at h3
  · rw [h1] at h3
    cases h3
    obtain ⟨l1, e1⟩ := List.getElem?_eq_some_iff.1 h2
    obtain ⟨l2, e2⟩ := List.getElem?_eq_some_iff.1 h4
    exact (List.Nodup.getElem_inj_iff (hg ls h1).1).1 (e1.trans e2.symm)

theorem labelOf_clean (g : Group) (hg : CleanLabels g) (i : Nat) (s : String) (hi : LabelOf g i s) : '-' ∉ s.toList := by
  rcases hi with ⟨_, h2⟩ | ⟨ls, h1, h2⟩
  · subst h2
    rw [natToList]
    intro h
    have := Nat.isDigit_of_mem_toDigits (by decide) (by decide) h
    revert this
    decide
  · exact (hg ls h1).2 s (List.mem_of_getElem? h2)

theorem labels_inj (groups : List Group) (hg : ∀ g ∈ groups, CleanLabels g) (c c' : List Nat) (ls : List String)
    (h : labelsFor groups c = .ok ls) (h' : labelsFor groups c' = .ok ls) (hc : c.length = groups.length)
    (hc' : c'.length = groups.length) : c = c' := by
  obtain ⟨_, h1⟩ := labelsFor_spec groups c ls h hc
  obtain ⟨_, h2⟩ := labelsFor_spec groups c' ls h' hc'
  apply List.ext_getElem (by omega)
  intro k hk hk'
  have hgk := List.getElem?_eq_getElem (show k < groups.length by omega)
  obtain ⟨i, s, hi, hs, hL⟩ := h1 k _ hgk
  obtain ⟨i', s', hi', hs', hL'⟩ := h2 k _ hgk
  rw [hs] at hs'
  cases hs'
  have := labelOf_inj _ (hg _ (List.getElem_mem _)) i i' s hL hL'
  subst this
  rw [List.getElem?_eq_getElem hk] at hi
  rw [List.getElem?_eq_getElem hk'] at hi'
  simpa using hi.trans hi'.symm

theorem intercalate_inj (l l' : List String) (hl : ∀ s ∈ l, '-' ∉ s.toList) (hl' : ∀ s ∈ l', '-' ∉ s.toList)
    (hne : l ≠ []) (hne' : l' ≠ []) (h : "-".intercalate l = "-".intercalate l') : l = l' := by
  have e1 := String.toList_split_intercalate (c := '-') hl
  have e2 := String.toList_split_intercalate (c := '-') hl'
  have hs : String.singleton '-' = "-" := rfl
  rw [hs, if_neg hne] at e1
  rw [hs, if_neg hne', ← h] at e2
  exact e1.symm.trans e2

/-- Every scenario of an accepted domain carries the labels of its schema indices. -/
theorem labels_of_build (groups : List Group) (hne : groups ≠ []) (hwf : ∀ g ∈ groups, g.WF)
    (combs : Option (List (List LabelOrIndex))) (d : Domain) (h : (DomainBuilder.mk groups combs).build = .ok d)
    (s : Index) (hs : s ∈ d.indices) :
    labelsFor groups s.schemaIndices = .ok s.labels ∧ s.schemaIndices.length = groups.length := by
  cases combs with
  | none =>
    have hb : (DomainBuilder.mk groups none).build = buildSubset groups := by
      cases groups with
      | nil => exact absurd rfl hne
      | cons g gs => rfl
    rw [hb] at h
    obtain ⟨out, h1, _, h3, _, _, _, h7⟩ := subsetLoop_spec groups ((groups.map Group.scenarioMap).any Option.isSome)
      hwf (fun h => any_scenarioMap groups h) (List.range (prod (groups.map (·.size)))) (by simp) [] (by simp)
    simp only [buildSubset, h1, List.nil_append, Except.ok.injEq] at h
    subst h
    refine ⟨h7 s hs, ?_⟩
    have : s.schemaIndices ∈ out.map Index.schemaIndices := List.mem_map.2 ⟨s, hs, rfl⟩
    rw [h3, map_decode] at this
    have hF := (mem_cart _ _).1 (List.mem_filter.1 this).1
    simpa using hF.length_eq
  | some combs =>
    by_cases hc : combs = []
    · subst hc
      rw [build_combinations_eq groups hne] at h
      split_ifs at h
      unfold buildCombinations at h
      simp only [mapE] at h
      split at h
      · simp at h
      · simp only [combinationLoop, Except.ok.injEq] at h
        subst h
        simp at hs
    · obtain ⟨_, _, h3, _, _⟩ := C54_combination_domain groups hne combs hc d h
      have hlen : s.schemaIndices.length = groups.length := by
        obtain ⟨k, hk⟩ := List.mem_iff_getElem?.1 hs
        obtain ⟨hk1, hk2⟩ := List.getElem?_eq_some_iff.1 hk
        have hl := (List.forall₂_iff_get.1 h3).1
        have := (List.forall₂_iff_get.1 h3).2 k hk1 (by omega)
        have he : d.indices.get ⟨k, hk1⟩ = s := hk2
        rw [he] at this
        exact this.1
      refine ⟨?_, hlen⟩
      rw [build_combinations_eq groups hne] at h
      split_ifs at h
      unfold buildCombinations at h
      cases h1 : mapE (resolveCombination groups) combs with
      | error e => simp [h1] at h
      | ok cs =>
        cases h2 : combinationMap groups.length cs with
        | error e => simp [h1, h2] at h
        | ok map =>
          cases h4 : combinationLoop groups map cs [] with
          | error e => simp [h1, h2, h4] at h
          | ok out =>
            simp only [h1, h2, h4, Except.ok.injEq] at h
            subst h
            obtain ⟨new, ha, _, _, hl⟩ := combinationLoop_spec groups map cs [] out h4 (by simp)
            simp only [List.nil_append] at ha
            subst ha
            exact (hl s hs).1

/-- C55 partial: if the labels within each group are distinct and contain no `-` (groups without labels use the index),
then in every accepted domain, however the scenarios are selected, two scenarios with the same printed label are the same
scenario. Missing: labels containing the separator (`C55_label_not_unique_refuted`). -/
theorem C55_label_unique_partial (groups : List Group) (hne : groups ≠ []) (hwf : ∀ g ∈ groups, g.WF)
    (hclean : ∀ g ∈ groups, CleanLabels g)
    (combs : Option (List (List LabelOrIndex))) (d : Domain) (h : (DomainBuilder.mk groups combs).build = .ok d)
    (s s' : Index) (hs : s ∈ d.indices) (hs' : s' ∈ d.indices)
    (he : "-".intercalate s.labels = "-".intercalate s'.labels) : s.schemaIndices = s'.schemaIndices := by
  obtain ⟨h1, h2⟩ := labels_of_build groups hne hwf combs d h s hs
  obtain ⟨h1', h2'⟩ := labels_of_build groups hne hwf combs d h s' hs'
  have clean : ∀ (c : List Nat) (ls : List String), labelsFor groups c = .ok ls → c.length = groups.length →
      ls ≠ [] ∧ ∀ l ∈ ls, '-' ∉ l.toList := by
    intro c ls hl hc
    obtain ⟨ha, hb⟩ := labelsFor_spec groups c ls hl hc
    have hpos : 0 < groups.length := List.length_pos_iff.2 hne
    refine ⟨fun e => by rw [e] at ha; simp at ha; omega, fun l hl => ?_⟩
    obtain ⟨k, hk⟩ := List.mem_iff_getElem?.1 hl
    have hk1 := (List.getElem?_eq_some_iff.1 hk).1
    obtain ⟨i, l', _, hl', hL⟩ := hb k _ (List.getElem?_eq_getElem (show k < groups.length by omega))
    rw [hk] at hl'
    cases hl'
    exact labelOf_clean _ (hclean _ (List.getElem_mem _)) i l hL
  have hls := intercalate_inj s.labels s'.labels (clean _ _ h1 h2).2 (clean _ _ h1' h2').2 (clean _ _ h1 h2).1
    (clean _ _ h1' h2').1 he
  rw [← hls] at h1'
  exact labels_inj groups hclean _ _ _ h1 h1' h2 h2'

example : CleanLabels ⟨"A", 2, none, some ["dry", "wet"]⟩ ∧ CleanLabels ⟨"B", 12, none, none⟩ := by
  constructor <;> intro ls h
  · simp only [Option.some.injEq] at h; subst h; decide
  · simp at h

end Verif.Scenario
