import Verif.Setup.Size
import Mathlib.Tactic.Ring
import Mathlib.Tactic.Linarith

/-! # Property theorems C260 (sizes of files as text) -/

namespace Verif.Setup

/-- All units, the last one included, from bytes to yottabytes. -/
def allUnits : List String := ["", "K", "M", "G", "T", "P", "E", "Z", "Y"]

/-- `t` tenths of `d` are `n` to the nearest tenth, which is the even one of two that are equally near. -/
def Nearest (n d t : Nat) : Prop := 2 * (10 * n) ≤ 2 * (t * d) + d ∧ 2 * (t * d) ≤ 2 * (10 * n) + d ∧
  (2 * (10 * n) = 2 * (t * d) + d ∨ 2 * (t * d) = 2 * (10 * n) + d → t % 2 = 0)

theorem tenths_nearest (n : Nat) {d : Nat} (hd : 0 < d) : Nearest n d (tenths n d) := by
  unfold Nearest tenths
  have h1 := Nat.div_add_mod (10 * n) d
  have h2 := Nat.mod_lt (10 * n) hd
  generalize 10 * n / d = q at *
  generalize 10 * n % d = r at *
  have e1 : (q + 1) * d = d * q + d := by ring
  have e2 : q * d = d * q := by ring
  simp only
  split
  · rw [e2]; omega
  · split
    · rw [e1]; omega
    · split
      · rw [e2]; omega
      · rw [e1]; omega

/-- Larger numbers are not shown as smaller ones. -/
theorem tenths_mono {m n d : Nat} (h : m ≤ n) : tenths m d ≤ tenths n d := by
  have hq : 10 * m / d ≤ 10 * n / d := Nat.div_le_div_right (by omega)
  rcases Nat.lt_or_eq_of_le hq with hlt | heq
  · have a : tenths m d ≤ 10 * m / d + 1 := by unfold tenths; simp only; split <;> [omega; (split <;> [omega; (split <;> omega)])]
    have b : 10 * n / d ≤ tenths n d := by unfold tenths; simp only; split <;> [omega; (split <;> [omega; (split <;> omega)])]
    omega
  · have hr : 10 * m % d ≤ 10 * n % d := by
      have h1 := Nat.div_add_mod (10 * m) d
      have h2 := Nat.div_add_mod (10 * n) d
      rw [heq] at h1
      omega
    unfold tenths
    rw [heq]
    generalize 10 * m % d = r at *
    generalize 10 * n % d = r' at *
    generalize 10 * n / d = q at *
    simp only
    split <;> split <;> (try omega) <;> (try split) <;> (try split) <;> (try omega) <;> (try split) <;> omega

theorem tenths_whole (n : Nat) : tenths n 1 = 10 * n := by
  unfold tenths
  simp [Nat.mod_one]

theorem tenths_same {d : Nat} (hd : 0 < d) (a : Nat) : tenths (a * d) d = 10 * a := by
  unfold tenths
  have h1 : 10 * (a * d) / d = 10 * a := by rw [← Nat.mul_assoc]; exact Nat.mul_div_cancel _ hd
  have h2 : 10 * (a * d) % d = 0 := by rw [← Nat.mul_assoc]; exact Nat.mul_mod_left _ _
  simp only [h1, h2]
  rw [if_pos (by omega)]

/-- The loop stops at the right unit. -/
theorem sizeGo_spec (n : Nat) (us : List String) : ∀ (i : Nat), (0 < i → 1024 ^ i ≤ n) →
    ∃ k, k ≤ us.length ∧ (k < us.length → n < 1024 ^ (i + k + 1)) ∧ (0 < i + k → 1024 ^ (i + k) ≤ n) ∧
      sizeGo n us (1024 ^ i) = (tenths n (1024 ^ (i + k)), (us ++ ["Y"])[k]?.getD "") := by
  induction us with
  | nil =>
    intro i hi
    exact ⟨0, by simp, by simp, by simpa using hi, by simp [sizeGo]⟩
  | cons u us ih =>
    intro i hi
    have e : 1024 * 1024 ^ i = 1024 ^ (i + 1) := by rw [pow_succ]; ring
    by_cases h : n < 1024 ^ (i + 1)
    · refine ⟨0, by simp, fun _ => by simpa using h, by simpa using hi, ?_⟩
      rw [sizeGo, e, if_pos h]; simp
    · obtain ⟨k, k1, k2, k3, k4⟩ := ih (i + 1) (fun _ => not_lt.1 h)
      have ek : i + 1 + k = i + (k + 1) := by omega
      rw [ek] at k2 k3 k4
      refine ⟨k + 1, by simpa using k1, fun hk => k2 (by simpa using hk), k3, ?_⟩
      rw [sizeGo, e, if_neg h, k4]; simp

/-- What is shown: the unit is the largest one in which the size is at least 1, and the number is the size in this unit to
the nearest tenth. -/
theorem C260_partial (n : Nat) (suffix : String) : ∃ k t unit, allUnits[k]? = some unit ∧ sizeofFmt n suffix = oneDecimal t ++ unit ++ suffix ∧
    (k < 8 → n < 1024 ^ (k + 1)) ∧ (0 < k → 1024 ^ k ≤ n) ∧ Nearest n (1024 ^ k) t ∧ (k < 8 → t ≤ 10240) := by
  obtain ⟨k, k1, k2, k3, k4⟩ := sizeGo_spec n sizeUnits 0 (by simp)
  simp only [Nat.zero_add, Nat.pow_zero] at k2 k3 k4
  have hk : k ≤ 8 := k1
  have hu : allUnits[k]? = some ((sizeUnits ++ ["Y"])[k]?.getD "") := by
    have : k < allUnits.length := by simp [allUnits]; omega
    show allUnits[k]? = some (allUnits[k]?.getD "")
    rw [List.getElem?_eq_getElem this]; rfl
  refine ⟨k, tenths n (1024 ^ k), _, hu, ?_, k2, k3, tenths_nearest n (by positivity), fun h8 => ?_⟩
  · unfold sizeofFmt
    rw [k4]
  · have h1 : n ≤ 1024 * 1024 ^ k := by have := k2 h8; rw [pow_succ] at this; omega
    have h2 := tenths_mono (d := 1024 ^ k) h1
    rw [tenths_same (by positivity)] at h2
    exact h2

/-- Files of less than 1024 bytes are shown with their exact size. -/
theorem C260_bytes {n : Nat} (h : n < 1024) (suffix : String) : sizeofFmt n suffix = toString n ++ ".0" ++ suffix := by
  unfold sizeofFmt sizeUnits
  rw [sizeGo, if_pos (by omega)]
  simp only [tenths_whole, oneDecimal]
  rw [show 10 * n / 10 = n by omega, show 10 * n % 10 = 0 by omega]
  have e : toString (0 : Nat) = "0" := by decide
  rw [e, show ".0" = "." ++ "0" from by decide]
  simp [String.append_assoc]

/-- What a number in a unit stands for, in tenths of a byte. -/
def worth (p : Nat × String) : Nat := p.1 * 1024 ^ (allUnits.idxOf p.2)

/-- The size of a larger file is never shown as a smaller one. -/
theorem C260_order {m n : Nat} (h : m ≤ n) : worth (sizeGo m sizeUnits 1) ≤ worth (sizeGo n sizeUnits 1) := by
  have hw : ∀ (x k : Nat), k ≤ 8 → worth (x, (sizeUnits ++ ["Y"])[k]?.getD "") = x * 1024 ^ k := by
    intro x k hk
    have all : ∀ i < 9, allUnits.idxOf ((sizeUnits ++ ["Y"])[i]?.getD "") = i := by decide
    have : allUnits.idxOf ((sizeUnits ++ ["Y"])[k]?.getD "") = k := all k (by omega)
    unfold worth
    rw [this]
  obtain ⟨k, k1, k2, k3, k4⟩ := sizeGo_spec m sizeUnits 0 (by simp)
  obtain ⟨l, l1, l2, l3, l4⟩ := sizeGo_spec n sizeUnits 0 (by simp)
  simp only [Nat.zero_add, Nat.pow_zero] at k2 k3 k4 l2 l3 l4
  rw [k4, l4, hw _ _ k1, hw _ _ l1]
  rcases Nat.lt_trichotomy k l with hkl | hkl | hkl
  · have hk8 : k < sizeUnits.length := lt_of_lt_of_le hkl l1
    have a1 : m ≤ 1024 * 1024 ^ k := by have := k2 hk8; rw [pow_succ] at this; omega
    have a2 := tenths_mono (d := 1024 ^ k) a1
    rw [tenths_same (by positivity)] at a2
    have b1 : 1 * 1024 ^ l ≤ n := by have := l3 (by omega); omega
    have b2 := tenths_mono (d := 1024 ^ l) b1
    rw [tenths_same (by positivity)] at b2
    calc tenths m (1024 ^ k) * 1024 ^ k ≤ 10 * 1024 * 1024 ^ k := Nat.mul_le_mul_right _ a2
      _ = 10 * 1 * 1024 ^ (k + 1) := by rw [pow_succ]; ring
      _ ≤ 10 * 1 * 1024 ^ l := Nat.mul_le_mul_left _ (Nat.pow_le_pow_right (by omega) hkl)
      _ ≤ _ := Nat.mul_le_mul_right _ b2
  · subst hkl
    exact Nat.mul_le_mul_right _ (tenths_mono h)
  · exfalso
    have hl8 : l < sizeUnits.length := lt_of_lt_of_le hkl k1
    have a := l2 hl8
    have b := k3 (by omega)
    have c : 1024 ^ (l + 1) ≤ 1024 ^ k := Nat.pow_le_pow_right (by omega) hkl
    omega

/-- **C260** is false: a file of one byte less than a megabyte is shown with 1024.0 kilobytes. -/
theorem C260_false : sizeofFmt 1048575 = "1024.0KB" := by decide +kernel

/-- A file of 1536 bytes, and one of 10 MB and a half. -/
example : sizeofFmt 1536 = "1.5KB" ∧ sizeofFmt 11010048 = "10.5MB" ∧ (999 : Nat) < 1024 ∧ sizeofFmt 999 = "999.0B" := by decide +kernel

example : worth (sizeGo 1048575 sizeUnits 1) ≤ worth (sizeGo 1048577 sizeUnits 1) := C260_order (by omega)

end Verif.Setup
