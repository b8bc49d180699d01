import Verif.Spec.V1
import Mathlib.Data.List.Basic
import Mathlib.Data.List.Nodup

/-! # Made-up names are different -/

namespace Verif.V1

theorem split_last {α : Type} (c : α) (l1 l2 d1 d2 : List α) (h1 : c ∉ d1) (h2 : c ∉ d2)
    (h : l1 ++ c :: d1 = l2 ++ c :: d2) : l1 = l2 ∧ d1 = d2 := by
  rcases List.append_eq_append_iff.1 h with ⟨a, ha, hb⟩ | ⟨a, ha, hb⟩
  · cases a with
    | nil => simp at ha hb; exact ⟨ha.symm, hb⟩
    | cons x a =>
      have := (List.cons.inj hb).2
      exact absurd (this ▸ by simp) h1
  · cases a with
    | nil => simp at ha hb; exact ⟨ha, hb.symm⟩
    | cons x a =>
      have := (List.cons.inj hb).2
      exact absurd (this ▸ by simp) h2

theorem digits (k : Nat) (c : Char) (h : c ∈ (Nat.repr k).toList) : c.isDigit = true := by
  simp only [Nat.toList_repr] at h
  exact Nat.isDigit_of_mem_toDigits (by omega) (by omega) h

theorem madeUp_some (parent : String) (k : Nat) :
    (madeUp (some parent) k).toList = (parent.toList ++ ['-']) ++ 'p' :: (Nat.repr k).toList := by
  simp [madeUp, String.toList_append]

theorem madeUp_none (k : Nat) :
    (madeUp none k).toList = "unnamed".toList ++ '-' :: (Nat.repr k).toList := by
  simp [madeUp, String.toList_append]

theorem madeUp_inj (a b : String) (i j : Nat) (h : madeUp (some a) i = madeUp (some b) j) : a = b ∧ i = j := by
  have h' := congrArg String.toList h
  rw [madeUp_some, madeUp_some] at h'
  have hd : ∀ k, 'p' ∉ (Nat.repr k).toList := fun k hc => absurd (digits k 'p' hc) (by decide)
  obtain ⟨h1, h2⟩ := split_last 'p' _ _ _ _ (hd i) (hd j) h'
  refine ⟨?_, ?_⟩
  · exact String.toList_inj.1 (List.append_cancel_right h1)
  · exact Nat.repr_inj.1 (String.toList_inj.1 h2)

theorem madeUp_ne (a : String) (i j : Nat) : madeUp (some a) i ≠ madeUp none j := by
  intro h
  have h' := congrArg String.toList h
  rw [madeUp_some, madeUp_none, List.append_assoc] at h'
  have hd : ∀ k, '-' ∉ (Nat.repr k).toList := fun k hc => absurd (digits k '-' hc) (by decide)
  have hp : '-' ∉ 'p' :: (Nat.repr i).toList := by
    simp only [List.mem_cons, not_or]
    exact ⟨by decide, hd i⟩
  obtain ⟨-, h2⟩ := split_last '-' _ _ _ _ hp (hd j) h'
  have : 'p' ∈ (Nat.repr j).toList := by rw [← h2]; simp
  exact absurd (digits j 'p' this) (by decide)

/-- A name that does not end in a digit is not made up. -/
theorem notMadeUp (n : String) (h : (n.toList.getLast?.map Char.isDigit).getD false = false) :
    ∀ parent k, n ≠ madeUp parent k := by
  intro parent k he
  have hne : (Nat.repr k).toList ≠ [] := by simp [Nat.toList_repr]
  have hl : n.toList.getLast? = (Nat.repr k).toList.getLast? := by
    cases parent with
    | some a => rw [he, madeUp_some, List.getLast?_append, List.getLast?_cons]; cases hh : (Nat.repr k).toList.getLast? with
      | none => simp [List.getLast?_eq_none_iff] at hh
      | some x => simp
    | none => rw [he, madeUp_none, List.getLast?_append, List.getLast?_cons]; cases hh : (Nat.repr k).toList.getLast? with
      | none => simp [List.getLast?_eq_none_iff] at hh
      | some x => simp
  have hd := digits k _ (List.getLast_mem hne)
  rw [hl, List.getLast?_eq_some_getLast hne, Option.map_some, hd] at h
  exact absurd h (by decide)

end Verif.V1
