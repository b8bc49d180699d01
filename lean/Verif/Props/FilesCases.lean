import Verif.Props.Files

/-! # Files that show C102 -/

namespace Verif.Files.Cases

/-- Two digests for the sake of examples: the first bytes, and the length. -/
def H : Digests := ⟨fun bs => bs.take 2, fun bs => [UInt8.ofNat bs.length, 0]⟩

def disk : Disk := fun p => if p = "data/a.csv" then some [175, 9, 1] else if p = "/tmp/b.csv" then some [7] else none

example : hexEncode [175, 9] = "af09" := by decide +kernel

theorem checks : (Checksum.md5 "af09").check H disk "data/a.csv" = .ok () := by decide +kernel

example : Spells "af09".toList [175, 9] := by
  obtain ⟨bytes, hb, hf⟩ := (C102_checked H disk "data/a.csv" (.md5 "af09")).1 checks
  have : bytes = [175, 9, 1] := by
    have h : disk "data/a.csv" = some [175, 9, 1] := by decide +kernel
    rw [h] at hb; exact (Option.some.inj hb).symm
  subst this
  exact hf

/-- The same in upper case does not fit. -/
example : (Checksum.md5 "AF09").check H disk "data/a.csv" ≠ .ok () :=
  (C102_uppercase_refuted H disk "data/a.csv" "AF09" 'A' (by decide +kernel) (by decide +kernel)).1

example : (Checksum.md5 "AF09").check H disk "data/a.csv" = .error (.mismatch "af09" "AF09" "data/a.csv") := by decide +kernel

/-- Relative and absolute paths. -/
example : (Source.mk "a.csv" (some (.sha256 "0300"))).load H disk (some "data") = .ok [175, 9, 1] ∧
    (Source.mk "a.csv" (some (.sha256 "0300"))).load H disk (some "data/") = .ok [175, 9, 1] ∧
    (Source.mk "/tmp/b.csv" none).load H disk (some "data") = .ok [7] ∧
    (Source.mk "a.csv" none).load H disk none = .error (.io "a.csv") ∧
    (Source.mk "data/a.csv" none).load H disk none = .ok [175, 9, 1] := by decide +kernel

example : ∃ path, At "a.csv" (some "data") path ∧ disk path = some [175, 9, 1] := by
  obtain ⟨path, h, hd, -⟩ := (C102_read H disk (some "data") ⟨"a.csv", some (.sha256 "0300")⟩ [175, 9, 1]).1 (by decide +kernel)
  exact ⟨path, h, hd⟩

example : At "a.csv" (some "data") "data/a.csv" := .inside _ _ (by decide +kernel) (by decide +kernel) (by decide +kernel)

/-- Another content of another digest. -/
example : ∃ actual expected, (Checksum.md5 "af09").check H (fun _ => some [1]) "data/a.csv" = .error (.mismatch actual expected "data/a.csv") :=
  C102_change H disk _ _ _ [175, 9, 1] [1] (by decide +kernel) rfl checks (by decide +kernel) (by decide +kernel)

/-- A data frame of an old model. -/
def f : Frame :=
  ⟨"inflow", some "a.csv", none, some "site", none, [("index_col", .str "date"), ("parse_dates", .bool true), ("sep", .str ";")], some [("sha256", "0300"), ("sha1", "00")]⟩

theorem converted : f.convert [] =
    (.ok ⟨"inflow", "inflow", some (.column "site")⟩, [⟨"inflow", some "date", ⟨"a.csv", some (.sha256 "0300")⟩, [("sep", .str ";")]⟩]) := by decide +kernel

example : f.Times (.named "date") := .named (by decide +kernel)
example : Unique f.kwargs := by unfold Unique; decide +kernel
example : (f.pandas "a.csv").times = .named "date" := C102_times_partial f _ (by unfold Unique; decide +kernel) _ (.named (by decide +kernel)) (by simp)
example : (f.pandas "a.csv").call = .ok .csv := (C102_called_partial f "a.csv" (by decide +kernel)).1 (by decide +kernel)
example : (f.pandas "a.csv").kwargs.get "sep" = some (.str ";") := by
  rw [C102_keywords f "a.csv" "sep" (by decide) (.inl (by decide))]; decide +kernel

example : ∃ x, (("md5", x) ∈ [("sha256", "0300"), ("sha1", "00")] ∧ Spells x.toList (H.md5 [175, 9, 1])) ∨
    (("sha256", x) ∈ [("sha256", "0300"), ("sha1", "00")] ∧ Spells x.toList (H.sha256 [175, 9, 1])) :=
  C102_frame_checksum_partial H disk (some "data") f "a.csv" _ rfl ⟨"0300", .inr (by decide +kernel)⟩ [175, 9, 1] (by decide +kernel)

/-- The second column. -/
def g : Frame := { f with kwargs := [("index_col", .int 1)] }

example : (g.pandas "a.csv").times = .number 0 ∧ (g.pandas "a.csv").times ≠ .number 1 :=
  C102_times_refuted g _ (by unfold Unique; decide +kernel) 1 (.number (by decide +kernel)) (by decide)

example : (f.convert []).1 = .ok ⟨"inflow", "inflow", some (.column "site")⟩ := by rw [converted]
example : ∃ r, (f.convert []).1 = .ok r := (C102_accepts_frame f []).2 (by decide +kernel)

/-- The series of a name is made once: the second file is not read. -/
example : (Frame.convert { f with url := some "b.csv" } (f.convert []).2).2.map (·.source.url) = ["a.csv"] := by decide +kernel

example : tablesArray "t" "a.h5" (some [("sha256", "0300")]) = .ok ⟨"a.h5", some (.sha256 "0300")⟩ := by decide +kernel

example : extension "a/b.tar.csv" = some "csv" ∧ extension ".csv" = none ∧ extension "a.b/c" = none ∧ extension "c." = some "" := by decide +kernel

end Verif.Files.Cases
