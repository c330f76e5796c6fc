import Verif.Model.Basic
/-! # Decimal numerals determine their number -/
namespace Rustla

theorem decimal_injective {m n : Nat} (h : decimal m = decimal n) : m = n := by
  have h1 := Nat.ofDigitChars_ten_toDigits (n := m)
  have h2 := Nat.ofDigitChars_ten_toDigits (n := n)
  unfold decimal at h
  rw [h] at h1
  omega

end Rustla
