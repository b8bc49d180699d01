import Verif.Lemmas.BackendsCoefs

/-! # The problem made for Microlp -/

namespace Verif.Backends

open Verif.Solver

theorem microRows_spec (big : ℚ) (columns : List Nat) (elements : List ℚ) (x : Nat → ℚ) : ∀ (ls us : List ℚ) (starts : List Nat),
    us.length = ls.length → starts.length = ls.length + 1 →
    (∀ cs, microRows big columns elements ls us starts = some cs →
      (((∀ k ∈ cs, Op.Holds (value k.1 x) k.2.1 k.2.2) ∧
        ∀ i : Nat, us[i]? = some big → value (slice columns elements (starts.getD i 0) (starts.getD (i + 1) 0)) x ≤ big) ↔
      ∀ (i : Nat) (lo hi : ℚ), ls[i]? = some lo → us[i]? = some hi →
        lo ≤ value (slice columns elements (starts.getD i 0) (starts.getD (i + 1) 0)) x ∧
        value (slice columns elements (starts.getD i 0) (starts.getD (i + 1) 0)) x ≤ hi)) ∧
    (microRows big columns elements ls us starts = none → ∃ (i : Nat) (lo hi : ℚ), ls[i]? = some lo ∧ us[i]? = some hi ∧ hi < lo) := by
  intro ls
  induction ls with
  | nil =>
    intro us starts hu hs
    simp only [List.length_nil, List.length_eq_zero_iff] at hu
    subst hu
    refine ⟨fun cs h => ?_, fun h => ?_⟩
    · simp only [microRows, Option.some.injEq] at h
      subst h
      simp
    · simp [microRows] at h
  | cons l ls ih =>
    intro us starts hu hs
    cases us with
    | nil => simp at hu
    | cons u us =>
      match starts, hs with
      | s :: e :: rest, hs =>
        obtain ⟨i1, i2⟩ := ih us (e :: rest) (by simpa using hu) (by simpa using hs)
        have shift : ∀ i : Nat, slice columns elements ((s :: e :: rest).getD (i + 1) 0) ((s :: e :: rest).getD (i + 1 + 1) 0) =
            slice columns elements ((e :: rest).getD i 0) ((e :: rest).getD (i + 1) 0) := fun i => rfl
        have zero : slice columns elements ((s :: e :: rest).getD 0 0) ((s :: e :: rest).getD (0 + 1) 0) = slice columns elements s e := rfl
        cases hm : microRows big columns elements ls us (e :: rest) with
        | none =>
          refine ⟨fun cs h => by simp [microRows, hm] at h, fun _ => ?_⟩
          obtain ⟨i, lo, hi, h1, h2, h3⟩ := i2 hm
          exact ⟨i + 1, lo, hi, by simpa using h1, by simpa using h2, h3⟩
        | some cs1 =>
          have key := i1 cs1 hm
          have split1 : (∀ (i : Nat) (lo hi : ℚ), (l :: ls)[i]? = some lo → (u :: us)[i]? = some hi →
              lo ≤ value (slice columns elements ((s :: e :: rest).getD i 0) ((s :: e :: rest).getD (i + 1) 0)) x ∧
              value (slice columns elements ((s :: e :: rest).getD i 0) ((s :: e :: rest).getD (i + 1) 0)) x ≤ hi) ↔
              (l ≤ value (slice columns elements s e) x ∧ value (slice columns elements s e) x ≤ u) ∧
              ∀ (i : Nat) (lo hi : ℚ), ls[i]? = some lo → us[i]? = some hi →
                lo ≤ value (slice columns elements ((e :: rest).getD i 0) ((e :: rest).getD (i + 1) 0)) x ∧
                value (slice columns elements ((e :: rest).getD i 0) ((e :: rest).getD (i + 1) 0)) x ≤ hi := by
            constructor
            · intro h
              exact ⟨h 0 l u rfl rfl, fun i lo hi h1 h2 => h (i + 1) lo hi (by simpa using h1) (by simpa using h2)⟩
            · rintro ⟨h0, h⟩ i lo hi h1 h2
              cases i with
              | zero =>
                simp only [List.getElem?_cons_zero, Option.some.injEq] at h1 h2
                subst h1 h2
                exact h0
              | succ i => exact h i lo hi (by simpa using h1) (by simpa using h2)
          have split2 : (∀ i : Nat, (u :: us)[i]? = some big →
              value (slice columns elements ((s :: e :: rest).getD i 0) ((s :: e :: rest).getD (i + 1) 0)) x ≤ big) ↔
              (u = big → value (slice columns elements s e) x ≤ big) ∧
              ∀ i : Nat, us[i]? = some big → value (slice columns elements ((e :: rest).getD i 0) ((e :: rest).getD (i + 1) 0)) x ≤ big := by
            constructor
            · intro h
              exact ⟨fun hu => h 0 (by simp [hu]), fun i hi => h (i + 1) (by simpa using hi)⟩
            · rintro ⟨h0, h⟩ i hi
              cases i with
              | zero => exact h0 (by simpa using hi)
              | succ i => exact h i (by simpa using hi)
          refine ⟨fun cs h => ?_, fun h => ?_⟩
          · rw [split1, split2, ← key]
            simp only [microRows, hm] at h
            by_cases h1 : l = u
            · rw [if_pos h1] at h
              simp only [Option.some.injEq] at h
              subst h
              rw [List.forall_mem_cons]
              simp only [Op.Holds]
              constructor
              · rintro ⟨⟨a, b⟩, c, d⟩
                exact ⟨⟨le_of_eq a.symm, le_of_eq (a.trans h1)⟩, b, d⟩
              · rintro ⟨⟨a, a'⟩, b, d⟩
                exact ⟨⟨le_antisymm (a'.trans (le_of_eq h1.symm)) a, b⟩, fun hb => hb ▸ a', d⟩
            · rw [if_neg h1] at h
              by_cases h2 : l < u
              · rw [if_pos h2] at h
                simp only [Option.some.injEq] at h
                subst h
                rw [List.forall_mem_cons]
                by_cases h3 : u = big
                · rw [if_pos h3]
                  simp only [Op.Holds]
                  constructor
                  · rintro ⟨⟨a, b⟩, c, d⟩
                    exact ⟨⟨a, h3 ▸ c h3⟩, b, d⟩
                  · rintro ⟨⟨a, a'⟩, b, d⟩
                    exact ⟨⟨a, b⟩, fun _ => h3 ▸ a', d⟩
                · rw [if_neg h3, List.forall_mem_cons]
                  simp only [Op.Holds]
                  constructor
                  · rintro ⟨⟨a, a', b⟩, c, d⟩
                    exact ⟨⟨a, a'⟩, b, d⟩
                  · rintro ⟨⟨a, a'⟩, b, d⟩
                    exact ⟨⟨a, a', b⟩, fun hb => absurd hb h3, d⟩
              · rw [if_neg h2] at h
                cases h
          · simp only [microRows, hm] at h
            by_cases h1 : l = u
            · rw [if_pos h1] at h; cases h
            · rw [if_neg h1] at h
              by_cases h2 : l < u
              · rw [if_pos h2] at h; cases h
              · exact ⟨0, l, u, rfl, rfl, lt_of_le_of_ne (not_lt.1 h2) (fun h => h1 h.symm)⟩

theorem microVars_get : ∀ (l u o : List ℚ) (t : List ColType), (∀ i : Nat, t[i]? = some .integer → l[i]? = some 0 ∧ u[i]? = some 1) →
    u.length = l.length → o.length = l.length → t.length = l.length → microVars l u o t =
      ((l.zip u).zip (o.zip t)).map (fun p => ⟨p.2.1, p.1.1, p.1.2, decide (p.2.2 = .integer)⟩) := by
  intro l
  induction l with
  | nil => intro u o t _ _ _ _; simp [microVars]
  | cons l ls ih =>
    intro u o t h hu ho ht
    cases u with
    | nil => simp at hu
    | cons u us =>
      cases o with
      | nil => simp at ho
      | cons o os =>
        cases t with
        | nil => simp at ht
        | cons t ts =>
          have h' : ∀ i : Nat, ts[i]? = some .integer → ls[i]? = some 0 ∧ us[i]? = some 1 := by
            intro i hi
            simpa using h (i + 1) (by simpa using hi)
          simp only [microVars, List.zip_cons_cons, List.map_cons]
          rw [ih us os ts h' (by simpa using hu) (by simpa using ho) (by simpa using ht)]
          congr 1
          cases t with
          | continuous => rfl
          | integer =>
            obtain ⟨h1, h2⟩ := h 0 rfl
            simp only [List.getElem?_cons_zero, Option.some.injEq] at h1 h2
            subst h1 h2
            rw [if_pos (by decide +kernel)]
            rfl

theorem zip_objs (l u o : List ℚ) (t : List ColType) (hu : u.length = l.length) (ho : o.length = l.length) (ht : t.length = l.length) :
    (((l.zip u).zip (o.zip t)).map (fun p => (⟨p.2.1, p.1.1, p.1.2, decide (p.2.2 = .integer)⟩ : Var))).map Var.obj = o := by
  rw [List.map_map]
  have : (Var.obj ∘ fun p : (ℚ × ℚ) × (ℚ × ColType) => (⟨p.2.1, p.1.1, p.1.2, decide (p.2.2 = .integer)⟩ : Var)) = Prod.fst ∘ Prod.snd := rfl
  rw [this, ← List.map_map, List.map_snd_zip (by simp [hu, ho, ht]), List.map_fst_zip (by omega)]

end Verif.Backends
