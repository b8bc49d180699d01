import Verif.Model.Values
import Mathlib.Data.List.Basic

/-! # C10: invalid state writes are rejected without side effects -/

namespace Verif.Values

/-! ## Specification: what can be observed of a state is the answer to each query -/

/-- A query of a stored value. -/
inductive Query
  | f64 (b : Bank) (i : Nat)
  | u64 (b : Bank) (i : Nat)
  | multi (b : Bank) (i : Nat)
  | transfer (i : Nat)
  deriving DecidableEq, Repr

/-- The answer to a query. -/
inductive Answer
  | f64 (v : F64)
  | u64 (v : Nat)
  | multi (v : MultiValue)
  deriving DecidableEq, Repr

/-- Answer of a state. -/
def State.ask (s : State) : Query → Option Answer
  | .f64 b i => (s.getF64 b i).map .f64
  | .u64 b i => (s.getU64 b i).map .u64
  | .multi b i => (s.getMulti b i).map .multi
  | .transfer i => (s.getTransfer i).map .f64

/-- The entry a write addresses. -/
def Write.target : Write → Query
  | .f64 b i _ => .f64 b i
  | .u64 b i _ => .u64 b i
  | .multi b i _ => .multi b i
  | .transfer i _ => .transfer i

/-- The value of a write. -/
def Write.value : Write → Answer
  | .f64 _ _ v => .f64 v
  | .u64 _ _ v => .u64 v
  | .multi _ _ v => .multi v
  | .transfer _ v => .f64 v

/-- The write is of a parameter value that is, or contains, NaN. -/
def Write.isNan : Write → Bool
  | .f64 _ _ v => v == .nan
  | .u64 _ _ _ => false
  | .multi _ _ v => v.values.any fun p => p.2 == .nan
  | .transfer _ _ => false

/-! ## Lemmas -/

theorem isNan_eq (v : F64) : v.isNan = (v == .nan) := by
  cases v <;> rfl

theorem hasNan_eq (v : MultiValue) : v.hasNan = v.values.any fun p => p.2 == .nan := by
  unfold MultiValue.hasNan
  congr 1
  funext p
  exact isNan_eq _

theorem bank_setBank (s : State) (b b' : Bank) (p : ParameterValues) :
    (s.setBank b p).bank b' = if b' = b then p else s.bank b' := by
  cases b <;> cases b' <;> rfl

theorem transfers_setBank (s : State) (b : Bank) (p : ParameterValues) : (s.setBank b p).transfers = s.transfers := by
  cases b <;> rfl

/-! ## Theorems -/

/-- **C10.** A write fails iff the entry does not exist or the value is NaN (index first). -/
theorem C10_write_fails_iff (s : State) (w : Write) :
    ((s.write w).1 = .error .indexNotFound ↔ s.ask w.target = none) ∧
    ((s.write w).1 = .error .nanValue ↔ s.ask w.target ≠ none ∧ w.isNan = true) := by
  cases w with
  | f64 b i v =>
    simp only [State.write, State.setF64, Write.target, State.ask, State.getF64, Write.isNan, isNan_eq]
    by_cases h : i < (s.bank b).values.length
    · by_cases hn : v = .nan <;> simp [h, hn]
    · simp [h]
  | u64 b i v =>
    simp only [State.write, State.setU64, Write.target, State.ask, State.getU64, Write.isNan]
    by_cases h : i < (s.bank b).indices.length <;> simp [h]
  | multi b i v =>
    simp only [State.write, State.setMulti, Write.target, State.ask, State.getMulti, Write.isNan, hasNan_eq]
    by_cases h : i < (s.bank b).multi.length
    · cases hn : (v.values.any fun p => p.2 == .nan) <;> simp [h]
    · simp [h]
  | transfer i v =>
    simp only [State.write, State.setTransfer, Write.target, State.ask, State.getTransfer, Write.isNan]
    by_cases h : i < s.transfers.length <;> simp [h]

/-- **C10.** A write that returns an error leaves the whole state as it was. -/
theorem C10_failed_write_no_effect (s : State) (w : Write) (e : SetError) (h : (s.write w).1 = .error e) :
    (s.write w).2 = s := by
  cases w with
  | f64 b i v =>
    simp only [State.write, State.setF64] at *
    split
    · rename_i hi
      simp only [hi, if_true] at h
      split
      · rfl
      · rename_i hn; simp [hn] at h
    · rfl
  | u64 b i v =>
    simp only [State.write, State.setU64] at *
    split
    · rename_i hi; simp [hi] at h
    · rfl
  | multi b i v =>
    simp only [State.write, State.setMulti] at *
    split
    · rename_i hi
      simp only [hi, if_true] at h
      split
      · rfl
      · rename_i hn; simp [hn] at h
    · rfl
  | transfer i v =>
    simp only [State.write, State.setTransfer] at *
    split
    · rename_i hi; simp [hi] at h
    · rfl

/-- **C10.** A successful write changes the addressed entry and nothing else. -/
theorem C10_write_frame (s : State) (w : Write) (h : (s.write w).1 = .ok ()) (q : Query) :
    (s.write w).2.ask q = if q = w.target then some w.value else s.ask q := by
  cases w with
  | f64 b i v =>
    simp only [State.write, State.setF64] at *
    split at h
    · rename_i hi
      split at h
      · cases h
      · rename_i hn
        simp only [hi, hn, if_true, Bool.false_eq_true, if_false]
        cases q with
        | f64 b' j =>
          simp only [State.ask, State.getF64, bank_setBank, Write.target, Write.value, Query.f64.injEq]
          by_cases hb : b' = b
          · subst hb
            by_cases hj : j = i
            · subst hj; simp [hi]
            · have : ¬ i = j := fun h => hj h.symm
              simp [hj, this]
          · simp [hb]
        | u64 b' j =>
          simp only [State.ask, State.getU64, bank_setBank, Write.target]
          by_cases hb : b' = b <;> simp [hb]
        | multi b' j =>
          simp only [State.ask, State.getMulti, bank_setBank, Write.target]
          by_cases hb : b' = b <;> simp [hb]
        | transfer j => simp [State.ask, State.getTransfer, transfers_setBank, Write.target]
    · cases h
  | u64 b i v =>
    simp only [State.write, State.setU64] at *
    split at h
    · rename_i hi
      simp only [hi, if_true]
      cases q with
      | u64 b' j =>
        simp only [State.ask, State.getU64, bank_setBank, Write.target, Write.value, Query.u64.injEq]
        by_cases hb : b' = b
        · subst hb
          by_cases hj : j = i
          · subst hj; simp [hi]
          · have : ¬ i = j := fun h => hj h.symm
            simp [hj, this]
        · simp [hb]
      | f64 b' j =>
        simp only [State.ask, State.getF64, bank_setBank, Write.target]
        by_cases hb : b' = b <;> simp [hb]
      | multi b' j =>
        simp only [State.ask, State.getMulti, bank_setBank, Write.target]
        by_cases hb : b' = b <;> simp [hb]
      | transfer j => simp [State.ask, State.getTransfer, transfers_setBank, Write.target]
    · cases h
  | multi b i v =>
    simp only [State.write, State.setMulti] at *
    split at h
    · rename_i hi
      split at h
      · cases h
      · rename_i hn
        simp only [hi, hn, if_true, Bool.false_eq_true, if_false]
        cases q with
        | multi b' j =>
          simp only [State.ask, State.getMulti, bank_setBank, Write.target, Write.value, Query.multi.injEq]
          by_cases hb : b' = b
          · subst hb
            by_cases hj : j = i
            · subst hj; simp [hi]
            · have : ¬ i = j := fun h => hj h.symm
              simp [hj, this]
          · simp [hb]
        | f64 b' j =>
          simp only [State.ask, State.getF64, bank_setBank, Write.target]
          by_cases hb : b' = b <;> simp [hb]
        | u64 b' j =>
          simp only [State.ask, State.getU64, bank_setBank, Write.target]
          by_cases hb : b' = b <;> simp [hb]
        | transfer j => simp [State.ask, State.getTransfer, transfers_setBank, Write.target]
    · cases h
  | transfer i v =>
    simp only [State.write, State.setTransfer] at *
    split at h
    · rename_i hi
      simp only [hi, if_true]
      cases q with
      | transfer j =>
        simp only [State.ask, State.getTransfer, Write.target, Write.value, Query.transfer.injEq]
        by_cases hj : j = i
        · subst hj; simp [hi]
        · have : ¬ i = j := fun h => hj h.symm
          simp [hj, this]
      | f64 b' j => simp only [State.ask, State.getF64, Write.target]; cases b' <;> simp [State.bank]
      | u64 b' j => simp only [State.ask, State.getU64, Write.target]; cases b' <;> simp [State.bank]
      | multi b' j => simp only [State.ask, State.getMulti, Write.target]; cases b' <;> simp [State.bank]
    · cases h

/-- Specification of a sequence of attempted writes on an entry: the value of the last write to that entry that is not
NaN, if the entry exists. -/
def lastWrite (q : Query) (old : Option Answer) : List Write → Option Answer
  | [] => old
  | w :: ws => lastWrite q (if q = w.target ∧ old ≠ none ∧ w.isNan = false then some w.value else old) ws

/-- **C10**, whole histories: after any sequence of attempted writes, valid or not, every entry holds the last valid value
written to it, or its old value. -/
theorem C10_history (ws : List Write) : ∀ (s : State) (q : Query),
    (s.writeAll ws).ask q = lastWrite q (s.ask q) ws := by
  induction ws with
  | nil => intro s q; rfl
  | cons w ws ih =>
    intro s q
    obtain ⟨h1, h2⟩ := C10_write_fails_iff s w
    simp only [State.writeAll, lastWrite]
    rw [ih]
    congr 1
    cases hw : (s.write w).1 with
    | error e =>
      rw [C10_failed_write_no_effect s w e hw]
      cases e with
      | indexNotFound =>
        have := h1.1 hw
        by_cases hq : q = w.target
        · rw [← hq] at this; simp [this]
        · simp [hq]
      | nanValue =>
        have := (h2.1 hw).2
        simp [this]
    | ok u =>
      rw [C10_write_frame s w hw q]
      have hn : s.ask w.target ≠ none := fun hc => by rw [h1.2 hc] at hw; cases hw
      have hnan : w.isNan = false := by
        cases hx : w.isNan with
        | false => rfl
        | true => rw [h2.2 ⟨hn, hx⟩] at hw; cases hw
      by_cases hq : q = w.target
      · subst hq; simp [hn, hnan]
      · simp [hq]

/-- No parameter value of the state is or contains NaN. -/
def NoNan (s : State) : Prop :=
  (∀ b i, s.ask (.f64 b i) ≠ some (.f64 .nan)) ∧
  (∀ b i m, s.ask (.multi b i) = some (.multi m) → ∀ p ∈ m.values, p.2 ≠ .nan)

/-- **C10**, invariant: whatever is written, no stored parameter value is ever NaN. -/
theorem C10_never_nan (ws : List Write) : ∀ (s : State), NoNan s → NoNan (s.writeAll ws) := by
  induction ws with
  | nil => intro s h; exact h
  | cons w ws ih =>
    intro s h
    simp only [State.writeAll]
    apply ih
    cases hw : (s.write w).1 with
    | error e => rw [C10_failed_write_no_effect s w e hw]; exact h
    | ok u =>
      have hf := C10_write_frame s w hw
      have hnan : w.isNan = false := by
        cases hx : w.isNan with
        | false => rfl
        | true =>
          obtain ⟨h1, h2⟩ := C10_write_fails_iff s w
          have hn : s.ask w.target ≠ none := fun hc => by rw [h1.2 hc] at hw; cases hw
          rw [h2.2 ⟨hn, hx⟩] at hw; cases hw
      constructor
      · intro b i hc
        rw [hf] at hc
        split at hc
        · rename_i hq
          cases w with
          | f64 b' i' v =>
            simp only [Write.value, Option.some.injEq, Answer.f64.injEq] at hc
            simp [Write.isNan, hc] at hnan
          | u64 b' i' v => simp [Write.target] at hq
          | multi b' i' v => simp [Write.target] at hq
          | transfer i' v => simp [Write.target] at hq
        · exact h.1 b i hc
      · intro b i m hc p hp
        rw [hf] at hc
        split at hc
        · rename_i hq
          cases w with
          | multi b' i' v =>
            simp only [Write.value, Option.some.injEq, Answer.multi.injEq] at hc
            subst hc
            simp only [Write.isNan, List.any_eq_false, beq_iff_eq] at hnan
            exact hnan p hp
          | u64 b' i' v => simp [Write.target] at hq
          | f64 b' i' v => simp [Write.target] at hq
          | transfer i' v => simp [Write.target] at hq
        · exact h.2 b i m hc p hp

/-- The initial state has no NaN. -/
theorem C10_initial_no_nan (a b c d e f g h i j k l n : Nat) :
    NoNan ⟨.new a b c, .new d e f, .new g h i, .new j k l, List.replicate n (.num 0)⟩ := by
  constructor
  · intro bk x hc
    cases bk <;>
      simp [State.ask, State.getF64, State.bank, ParameterValues.new, List.getElem?_replicate] at hc
  · intro bk x m hc p hp
    cases bk <;>
      (simp [State.ask, State.getMulti, State.bank, ParameterValues.new, List.getElem?_replicate] at hc
       obtain ⟨_, rfl⟩ := hc
       simp at hp)

/-- A state with one value in each group. -/
def exState : State := ⟨.new 1 1 1, .new 1 1 1, .new 2 1 1, .new 1 1 1, [.num 0]⟩

example : (exState.writeAll [.f64 .before 1 (.num 7), .f64 .before 1 .nan, .f64 .before 9 (.num 1), .f64 .after 0 (.num 3)]).ask
    (.f64 .before 1) = some (.f64 (.num 7)) := by decide +kernel

/-- Values transferred between networks are not parameter values: NaN is accepted there. -/
theorem C10_transfer_accepts_nan_refuted :
    (exState.write (.transfer 0 .nan)).1 = .ok () ∧ (exState.write (.transfer 0 .nan)).2.ask (.transfer 0) = some (.f64 .nan) := by
  constructor <;> decide +kernel

end Verif.Values
