import Verif.Spec.Files
import Mathlib.Data.List.Nodup
import Mathlib.Tactic.IntervalCases

/-! # Lemmas about files of data -/

namespace Verif.Files

theorem value_hexDigit {n : Nat} (h : n < 16) : value (hexDigit n) = some n := by
  have : ∀ n : Fin 16, value (hexDigit n) = some n.val := by decide
  exact this ⟨n, h⟩

theorem hexDigit_value {c : Char} {n : Nat} (h : value c = some n) : hexDigit n = c ∧ n < 16 := by
  have key : ∀ k : Fin 103, value (Char.ofNat k) = some n → hexDigit n = Char.ofNat k ∧ n < 16 := by
    intro k hk
    have : ∀ k : Fin 103, ∀ m, value (Char.ofNat k) = some m → hexDigit m = Char.ofNat k ∧ m < 16 := by
      intro k m hm
      have h2 : ∀ k : Fin 103, ∀ m ∈ value (Char.ofNat k), hexDigit m = Char.ofNat k ∧ m < 16 := by decide +kernel
      exact h2 k m hm
    exact this k n hk
  have hc : c.toNat < 103 := by
    unfold value at h
    have e : '9'.toNat = 57 := rfl
    have e2 : 'f'.toNat = 102 := rfl
    split_ifs at h <;> omega
  have := key ⟨c.toNat, hc⟩ (by simpa [Char.ofNat_toNat] using h)
  simpa [Char.ofNat_toNat] using this

theorem spells_encode (bs : List UInt8) : Spells (hexEncode bs).toList bs := by
  simp only [hexEncode, String.toList_ofList]
  induction bs with
  | nil => exact .nil
  | cons b bs ih =>
    have hb : b.toNat < 256 := b.toNat_lt
    exact .cons (value_hexDigit (by omega)) (value_hexDigit (by omega)) (by omega) ih

theorem encode_spells {cs : List Char} {bs : List UInt8} (h : Spells cs bs) : hexEncode bs = String.ofList cs := by
  simp only [hexEncode]
  congr 1
  induction h with
  | nil => rfl
  | @cons c d cs b bs hi lo hc hd hb _ ih =>
    obtain ⟨h1, l1⟩ := hexDigit_value hc
    obtain ⟨h2, l2⟩ := hexDigit_value hd
    simp only [List.flatMap_cons, ih, hb]
    rw [show (16 * hi + lo) / 16 = hi from by omega, show (16 * hi + lo) % 16 = lo from by omega, h1, h2]
    rfl

theorem spells_unique {cs : List Char} {bs bs' : List UInt8} (h : Spells cs bs) (h' : Spells cs bs') : bs = bs' := by
  induction h generalizing bs' with
  | nil => cases h'; rfl
  | cons hc hd hb _ ih =>
    cases h' with
    | cons hc' hd' hb' h' =>
      rw [hc] at hc'; rw [hd] at hd'
      cases hc'; cases hd'
      rw [ih h', UInt8.toNat_inj.1 (hb.trans hb'.symm)]

theorem validate_ok {digest : List UInt8 → List UInt8} {disk : Disk} {path expected : String} :
    validate digest disk path expected = .ok () ↔ ∃ bytes, disk path = some bytes ∧ Spells expected.toList (digest bytes) := by
  unfold validate
  cases h : disk path with
  | none => simp
  | some bytes =>
    simp only [Option.some.injEq, exists_eq_left']
    constructor
    · intro h
      split at h
      · rename_i h2; rw [← h2]; exact spells_encode _
      · cases h
    · intro h
      rw [if_pos]
      rw [encode_spells h, String.ofList_toList]

theorem check_ok {H : Digests} {disk : Disk} {path : String} {c : Checksum} :
    c.check H disk path = .ok () ↔ ∃ bytes, disk path = some bytes ∧ c.Fits H bytes := by
  cases c <;> exact validate_ok

theorem at_makePath (url : String) (dp : Option String) : At url dp (makePath url dp) := by
  unfold makePath isRelative
  by_cases h : url.toList.head? = some '/'
  · simp only [h, decide_true, Bool.not_true, Bool.false_eq_true, if_false]
    exact .absolute url dp h
  · simp only [h, decide_false, Bool.not_false, if_true]
    cases dp with
    | none => exact .here url
    | some dir =>
      unfold join
      by_cases hd : dir.toList = []
      · have : dir = "" := String.toList_inj.1 hd
        subst this
        simpa using At.inside0 url h
      · by_cases hl : dir.toList.getLast? = some '/'
        · simp only [hl, or_true, if_true]
          exact .inside' url dir h hl
        · simp only [hd, hl, or_self, if_false]
          exact .inside url dir h (fun e => hd (by rw [e]; rfl)) hl

theorem at_unique {url p q : String} {dp : Option String} (h : At url dp p) (h' : At url dp q) : p = q := by
  cases h <;> cases h' <;> first | rfl | contradiction | (simp_all; done)

theorem get_mem {α : Type} {m : Map α} {k : String} {v : α} (h : m.get k = some v) : (k, v) ∈ m := by
  unfold Map.get at h
  cases hf : m.find? (·.1 == k) with
  | none => rw [hf] at h; cases h
  | some p =>
    rw [hf] at h
    have h1 := List.mem_of_find?_eq_some hf
    have h2 := List.find?_some hf
    simp only [beq_iff_eq] at h2
    cases h
    rw [← h2]
    exact h1

theorem mem_get {α : Type} {m : Map α} {k : String} {v : α} (hu : Unique m) (h : (k, v) ∈ m) : m.get k = some v := by
  induction m with
  | nil => cases h
  | cons p m ih =>
    unfold Unique at hu ih
    simp only [List.map_cons, List.nodup_cons] at hu
    unfold Map.get
    rcases List.mem_cons.1 h with rfl | h
    · simp
    · have hne : (p.1 == k) = false := by
        simp only [beq_eq_false_iff_ne]
        rintro rfl
        exact hu.1 (List.mem_map_of_mem (f := (·.1)) h)
      rw [List.find?_cons, hne]
      exact ih hu.2 h

theorem get_none {α : Type} {m : Map α} {k : String} : m.get k = none ↔ ∀ v, (k, v) ∉ m := by
  unfold Map.get
  simp only [Option.map_eq_none_iff, List.find?_eq_none, beq_iff_eq]
  exact ⟨fun h v hv => h _ hv rfl, fun h p hp e => h p.2 (by rw [← e]; exact hp)⟩

end Verif.Files
