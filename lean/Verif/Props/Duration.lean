import Verif.Model.Duration
import Verif.Props.Analysis
import Verif.Props.Output
import Verif.Proof.Decimal
/-
C49: the line printed by `print_duration`.
-/
namespace SqPerc

theorem Shows.digits {t : Text} {n : Nat} (h : readNat t = some n) {c : Char} (hc : isNum c = false) : Shows (t ++ [c]) [(n : Int)] := by
  unfold readNat at h
  split at h
  · rename_i ht
    obtain ⟨h1, h2⟩ := ht
    have hd : ∀ x ∈ t, Char.isDigit x = true := by simpa using h2
    intro r
    have : runs [] (t ++ [c] ++ r) = t :: runs [] r := by
      rw [List.append_assoc, runs_num _ (fun x hx => by simp [isNum, hd x hx]), List.nil_append, List.singleton_append, runs, if_neg (by simp [hc]),
        if_neg h1]
    rw [SqPerc.numbers, this, List.map_cons]
    have hv : runValue t = n := by
      have hne : ∀ ds, t ≠ '-' :: ds := by
        rintro ds rfl
        exact absurd (hd '-' (by simp)) (by decide)
      unfold runValue
      split
      · exact absurd rfl (hne _)
      · exact_mod_cast Option.some.inj h
    rw [hv]; rfl
  · cases h

theorem Shows.fmtF4 {x : ℚ} (hx : 0 ≤ x) : Shows (SqPerc.fmtF4 x ++ ['s'])
    [((roundEven (x * 10000)).toNat / 10000 : Nat), ((roundEven (x * 10000)).toNat % 10000 : Nat)] := by
  unfold SqPerc.fmtF4
  rw [if_neg (by linarith), abs_of_nonneg hx]
  have := (Shows.int (((roundEven (x * 10000)).toNat / 10000 : Nat) : Int) (c := '.') (by decide)).append
    (Shows.digits (readNat_pad 4 ((roundEven (x * 10000)).toNat % 10000)) (c := 's') (by decide))
  simpa [List.append_assoc] using this

/-- C49: the line that `print_duration` prints for a time `t ≥ 0` (in seconds) shows four whole numbers: hours, minutes, and the seconds before
and after the decimal point, the latter with four digits.  Read back they differ from `t` by at most half a unit of the last digit.  The
minutes are below 60; the seconds are below 60 unless the time is within half a unit below a full minute, when 60.0000 is printed. -/
theorem C49_text (t : ℚ) (ht : 0 ≤ t) : ∃ h m s f : Nat, numbers (durationText t) = [(h : Int), (m : Int), (s : Int), (f : Int)] ∧
    |(3600 * h + 60 * m + s + f / 10000 : ℚ) - t| ≤ 1 / 20000 ∧ m < 60 ∧ f < 10000 ∧ (s < 60 ∨ s = 60 ∧ f = 0) := by
  obtain ⟨h1, h2, h3, h4, h5, h6⟩ := C49_decomposes t ht
  unfold durationText
  generalize printDuration t = x at *
  obtain ⟨a, b, c⟩ := x
  simp only at h1 h2 h3 h4 h5 h6 ⊢
  obtain ⟨a, rfl⟩ := Int.eq_ofNat_of_zero_le h2
  obtain ⟨b, rfl⟩ := Int.eq_ofNat_of_zero_le h3
  have hr := roundEven_err (c * 10000)
  have hr0 : 0 ≤ roundEven (c * 10000) := by
    have := (abs_le.1 hr).1
    have : (-1 : ℚ) < roundEven (c * 10000) := by linarith
    have : (-1 : Int) < roundEven (c * 10000) := by exact_mod_cast this
    omega
  have hr1 : roundEven (c * 10000) ≤ 600000 := by
    have := (abs_le.1 hr).2
    have : (roundEven (c * 10000) : ℚ) < 600001 := by linarith
    have : roundEven (c * 10000) < 600001 := by exact_mod_cast this
    omega
  have hsh := Shows.fmtF4 h5
  obtain ⟨n, hn⟩ := Int.eq_ofNat_of_zero_le hr0
  rw [hn] at hsh hr hr1
  simp only [Int.toNat_natCast] at hsh
  have hdm : 10000 * (n / 10000) + n % 10000 = n := Nat.div_add_mod n 10000
  refine ⟨a, b, n / 10000, n % 10000, ?_, ?_, by omega, Nat.mod_lt _ (by norm_num), by omega⟩
  · refine Shows.numbers ?_
    have := ((((Shows.skip (w := "Total time elapsed ".toList) (by decide)).append
      (Shows.int_word (a : Int) (w := "h ".toList) rfl (by decide) (by decide))).append
      (Shows.int_word (b : Int) (w := "m ".toList) rfl (by decide) (by decide))).append hsh).snoc (w := ['\n']) (by decide)
    simp only [List.append_assoc, List.nil_append, List.singleton_append] at this
    have es : "s".toList = ['s'] := by decide
    simp only [println, List.append_assoc, es]
    exact this
  · have e : (10000 * ((n / 10000 : Nat) : ℚ) + ((n % 10000 : Nat) : ℚ)) = n := by exact_mod_cast hdm
    have hr' : |(n : ℚ) - c * 10000| ≤ 1 / 2 := by simpa using hr
    have h1' : (3600 * (a : ℚ) + 60 * b + c = t) := by simpa using h1
    have : (3600 * (a : ℚ) + 60 * b + ((n / 10000 : Nat) : ℚ) + ((n % 10000 : Nat) : ℚ) / 10000 : ℚ) - t = ((n : ℚ) - c * 10000) / 10000 := by
      rw [← h1', ← e]; ring
    rw [this, abs_div]
    rw [abs_of_pos (by norm_num : (0 : ℚ) < 10000)]
    rw [div_le_iff₀ (by norm_num)]
    linarith

/-- 59.99997 seconds are printed as 60.0000, 7322.50005 (a tie) as 2h 2m 2.5000s. -/
example : durationText (5999997 / 100000) = "Total time elapsed 0h 0m 60.0000s\n".toList ∧
    durationText (732250005 / 100000) = "Total time elapsed 2h 2m 2.5000s\n".toList ∧
    durationText (-1 / 2) = "Total time elapsed 0h 0m -0.5000s\n".toList := by decide +kernel

end SqPerc
