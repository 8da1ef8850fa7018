import Verif.Proofs.Double
import Verif.Spec.Double

/-!
# Rounding with a bounded exponent
-/

namespace Clever

open Spec (IsDouble EvenDouble Rounds)

/-! ## The result of an operation is determined -/

theorem canonical_le {m m' : Nat} {z z' : Int} (hm : m < 2 ^ 53) (hz : -1074 ≤ z)
    (hc' : 2 ^ 52 ≤ m' ∨ z' = -1074) (hlt : (m' : ℚ) * (2 : ℚ) ^ z' ≤ (m : ℚ) * (2 : ℚ) ^ z) : z' ≤ z := by
  by_contra hcon
  have hzz : z + 1 ≤ z' := by omega
  have h52 : 2 ^ 52 ≤ m' := by
    rcases hc' with h | h
    · exact h
    · omega
  have h1 : (2 : ℚ) ^ (z + 1) ≤ (2 : ℚ) ^ z' := zpow_le_zpow_right₀ (by norm_num) hzz
  have h2 : (2 : ℚ) ^ (z + 1) = 2 * (2 : ℚ) ^ z := by rw [zpow_add_one₀ (by norm_num)]; ring
  have hp : (0 : ℚ) < (2 : ℚ) ^ z := by positivity
  have h3 : (2 : ℚ) ^ 52 ≤ (m' : ℚ) := by exact_mod_cast h52
  have h4 : (m : ℚ) < (2 : ℚ) ^ 53 := by exact_mod_cast hm
  have : (2 : ℚ) ^ 53 * (2 : ℚ) ^ z ≤ (m' : ℚ) * (2 : ℚ) ^ z' := by
    calc (2 : ℚ) ^ 53 * (2 : ℚ) ^ z = (2 : ℚ) ^ 52 * (2 * (2 : ℚ) ^ z) := by ring
      _ ≤ (m' : ℚ) * (2 : ℚ) ^ z' := by
        rw [← h2]
        exact mul_le_mul h3 h1 (by positivity) (by positivity)
  have h5 : (m : ℚ) * (2 : ℚ) ^ z < (2 : ℚ) ^ 53 * (2 : ℚ) ^ z := mul_lt_mul_of_pos_right h4 hp
  linarith

theorem zpow_split {z z' : Int} (h : z ≤ z') : ∃ k : Nat, (2 : ℚ) ^ z' = (2 : ℚ) ^ k * (2 : ℚ) ^ z ∧ (k = 0 → z = z') := by
  refine ⟨(z' - z).toNat, ?_, fun h => by omega⟩
  rw [← zpow_natCast, ← zpow_add₀ (by norm_num : (2 : ℚ) ≠ 0)]
  congr 1
  omega

/-- Two even doubles are not adjacent. -/
theorem even_between {x x' : ℚ} (hx : EvenDouble x) (hx' : EvenDouble x') (h : x < x') :
    ∃ y, IsDouble y ∧ x < y ∧ y < x' := by
  obtain ⟨m, z, hm, hz1, hz2, hc, he, rfl⟩ := hx
  obtain ⟨m', z', hm', hz1', hz2', hc', he', rfl⟩ := hx'
  have hzz : z ≤ z' := canonical_le hm' hz1' hc h.le
  obtain ⟨k, hk, hk0⟩ := zpow_split hzz
  have hp : (0 : ℚ) < (2 : ℚ) ^ z := by positivity
  refine ⟨((m + 1 : Nat) : ℚ) * (2 : ℚ) ^ z, ⟨m + 1, z, by omega, hz1, hz2, rfl⟩, ?_, ?_⟩
  · apply mul_lt_mul_of_pos_right _ hp
    exact_mod_cast Nat.lt_succ_self m
  · rw [hk, ← mul_assoc] at h ⊢
    apply mul_lt_mul_of_pos_right _ hp
    have h1 := lt_of_mul_lt_mul_right h hp.le
    have h2 : m < m' * 2 ^ k := by exact_mod_cast h1
    have h3 : (m' * 2 ^ k) % 2 = 0 := by rw [Nat.mul_mod, he']; simp
    have h4 : m + 1 < m' * 2 ^ k := by omega
    exact_mod_cast h4

theorem _root_.Clever.Spec.Rounds.unique {q x x' : ℚ} (h : Rounds q x) (h' : Rounds q x') : x = x' := by
  have aux : ∀ {x x' : ℚ}, Rounds q x → Rounds q x' → x < x' → False := by
    intro x x' h h' hlt
    have heq : |x - q| = |x' - q| := le_antisymm (h.nearest x' h'.double) (h'.nearest x h.double)
    have e1 := h.ties x' h'.double hlt.ne' heq
    have e2 := h'.ties x h.double hlt.ne heq.symm
    obtain ⟨y, hy, h1, h2⟩ := even_between e1 e2 hlt
    have n1 := h.nearest y hy
    have n2 := h'.nearest y hy
    rcases abs_cases (x - q) with ⟨a1, a2⟩ | ⟨a1, a2⟩ <;> rcases abs_cases (x' - q) with ⟨b1, b2⟩ | ⟨b1, b2⟩ <;>
      rcases abs_cases (y - q) with ⟨c1, c2⟩ | ⟨c1, c2⟩ <;> linarith
  rcases lt_trichotomy x x' with hlt | heq | hlt
  · exact (aux h h' hlt).elim
  · exact heq
  · exact (aux h' h hlt).elim

/-! ## `fl` in the normal range -/

theorem expo_ge {q : ℚ} (hq : 0 < q) {z : Int} (h : pow2 z ≤ q) : z ≤ expo q := by
  obtain ⟨-, h2⟩ := expo_spec hq
  have := pow2_lt (lt_of_le_of_lt h h2)
  omega

theorem expo_le {q : ℚ} (hq : 0 < q) {z : Int} (h : q ≤ pow2 z) : expo q ≤ z := by
  obtain ⟨h1, -⟩ := expo_spec hq
  by_contra hc
  have h3 : pow2 (z + 1) ≤ pow2 z := le_trans (pow2_mono (by omega)) (le_trans h1 h)
  have := pow2_pos z
  rw [pow2_add, pow2_eq 1, zpow_one] at h3
  linarith

/-- A double that is not below `2 ^ e` is a multiple of `2 ^ (e - 52)`. -/
theorem multiple_of_le {m : Nat} {z e : Int} (hm : m < 2 ^ 53) (h : pow2 e ≤ (m : ℚ) * pow2 z) :
    ∃ n : Int, (m : ℚ) * pow2 z = (n : ℚ) * pow2 (e - 52) := by
  have hz : e - 52 ≤ z := by
    have h1 : (m : ℚ) * pow2 z < pow2 (53 + z) := by
      rw [pow2_add, show pow2 53 = (2 : ℚ) ^ 53 by rw [pow2_eq]; norm_num]
      exact mul_lt_mul_of_pos_right (by exact_mod_cast hm) (pow2_pos z)
    have := pow2_lt (lt_of_le_of_lt h h1)
    omega
  obtain ⟨k, hk⟩ : ∃ k : Nat, z = (e - 52) + (k : Int) := ⟨(z - (e - 52)).toNat, by omega⟩
  refine ⟨(m : Int) * 2 ^ k, ?_⟩
  rw [hk, pow2_add, pow2_nat]
  push_cast
  ring

theorem fl_rounds {q : ℚ} (h1 : pow2 (-1022) ≤ q) (h2 : q ≤ pow2 900) : Rounds q (fl q) := by
  have hp : 0 < pow2 (-1022) := pow2_pos (-1022)
  have hq : 0 < q := lt_of_lt_of_le hp h1
  have he1 := expo_ge hq h1
  have he2 := expo_le hq h2
  obtain ⟨m1, m2⟩ := mantissa_bounds hq
  obtain ⟨r1, r2⟩ := roundEven_range (a := 2 ^ 52) (b := 2 ^ 53) (by push_cast; exact m1) (by push_cast; exact m2.le)
  obtain ⟨s1, s2⟩ := expo_spec hq
  have hfl := fl_of_pos hq
  have hu := pow2_pos (expo q - 52)
  have e1 : (2 : ℚ) ^ 52 * pow2 (expo q - 52) = pow2 (expo q) := by
    have : (2 : ℚ) ^ 52 = pow2 52 := by rw [pow2_eq]; norm_num
    rw [this, ← pow2_add, show (52 : Int) + (expo q - 52) = expo q by ring]
  generalize hn : roundEven (q / pow2 (expo q - 52)) = n at r1 r2 hfl
  obtain ⟨k, rfl⟩ : ∃ k : Nat, n = (k : Int) := ⟨n.toNat, by omega⟩
  have hfl' : fl q = (k : ℚ) * pow2 (expo q - 52) := by rw [hfl]; push_cast; rfl
  have hk1 : 2 ^ 52 ≤ k := by exact_mod_cast r1
  have hk2 : k ≤ 2 ^ 53 := by exact_mod_cast r2
  have hdouble : IsDouble (fl q) := by
    by_cases hk : k = 2 ^ 53
    · refine ⟨2 ^ 52, expo q - 51, by norm_num, by omega, by omega, ?_⟩
      rw [hfl', hk, ← pow2_eq, show expo q - 51 = (expo q - 52) + 1 by ring, pow2_add (expo q - 52) 1, pow2_eq 1,
        zpow_one]
      push_cast
      ring
    · refine ⟨k, expo q - 52, by omega, by omega, by omega, ?_⟩
      rw [hfl', ← pow2_eq]
  refine ⟨?_, hdouble, ?_, ?_⟩
  · refine lt_of_le_of_lt h2 ?_
    rw [pow2_eq]
    have a : (2 : ℚ) ^ (970 : Int) = (2 : ℚ) ^ (900 : Int) * (2 : ℚ) ^ (70 : Int) := by
      rw [← zpow_add₀ (by norm_num)]; norm_num
    have b : (2 : ℚ) ^ (1024 : Int) = (2 : ℚ) ^ (900 : Int) * (2 : ℚ) ^ (124 : Int) := by
      rw [← zpow_add₀ (by norm_num)]; norm_num
    have c : (0 : ℚ) < (2 : ℚ) ^ (900 : Int) := by positivity
    rw [a, b, ← mul_sub]
    have d : (1 : ℚ) < (2 : ℚ) ^ (124 : Int) - (2 : ℚ) ^ (70 : Int) := by norm_num
    exact lt_mul_of_one_lt_right c d
  · rintro y ⟨m, z, hm, -, -, rfl⟩
    rw [← pow2_eq]
    exact fl_nearest hq (by omega) z
  · rintro y ⟨m, z, hm, hz1, hz2, rfl⟩ hne htie
    rw [← pow2_eq] at hne htie
    by_cases hk : k = 2 ^ 53
    · refine ⟨2 ^ 52, expo q - 51, by norm_num, by omega, by omega, Or.inl (le_refl _), by norm_num, ?_⟩
      rw [hfl', hk, ← pow2_eq, show expo q - 51 = (expo q - 52) + 1 by ring, pow2_add (expo q - 52) 1, pow2_eq 1,
        zpow_one]
      push_cast
      ring
    refine ⟨k, expo q - 52, by omega, by omega, by omega, Or.inl hk1, ?_, by rw [hfl', ← pow2_eq]⟩
    -- the other double is a multiple of the last place, so that the distance is half of it
    have hge : pow2 (expo q) ≤ (m : ℚ) * pow2 z := by
      by_contra hcon
      rw [not_le] at hcon
      have := fl_nearest hq (m := 2 ^ 52) (by norm_num) (expo q - 52)
      have e3 : (((2 ^ 52 : Nat)) : ℚ) * pow2 (expo q - 52) = pow2 (expo q) := by rw [← e1]; norm_num
      rw [e3, htie, abs_of_nonpos (by linarith), abs_of_nonpos (by linarith)] at this
      linarith
    obtain ⟨n, hn'⟩ := multiple_of_le hm hge
    rw [hn', hfl'] at hne htie
    have hnk : n ≠ (k : Int) := by
      rintro rfl
      exact hne (by push_cast; rfl)
    have habs : ∀ c : ℚ, |c * pow2 (expo q - 52) - q| = |c - q / pow2 (expo q - 52)| * pow2 (expo q - 52) := by
      intro c
      rw [← abs_of_pos hu, ← abs_mul, abs_of_pos hu, sub_mul, div_mul_cancel₀ _ hu.ne']
    rw [habs, habs] at htie
    have htie' := mul_right_cancel₀ hu.ne' htie
    have hb := roundEven_bounds (q / pow2 (expo q - 52))
    rw [hn] at hb
    push_cast at hb
    have hhalf : |((k : Int) : ℚ) - q / pow2 (expo q - 52)| = 1 / 2 := by
      push_cast
      apply le_antisymm
      · rw [abs_le]; constructor <;> linarith [hb.1, hb.2]
      · have h1 : (1 : ℚ) ≤ |(n : ℚ) - (k : ℚ)| := by
          have : (1 : Int) ≤ |n - (k : Int)| := Int.one_le_abs (sub_ne_zero.2 hnk)
          exact_mod_cast this
        have h2 := abs_sub_le (n : ℚ) (q / pow2 (expo q - 52)) (k : ℚ)
        rw [abs_sub_comm (q / pow2 (expo q - 52)) (k : ℚ)] at h2
        linarith
    have := roundEven_even (q / pow2 (expo q - 52)) (by rw [hn]; exact hhalf)
    rw [hn] at this
    omega

theorem isDouble_zero : IsDouble 0 := ⟨0, 0, by norm_num, by norm_num, by norm_num, by simp⟩

theorem rounds_zero : Rounds 0 0 := by
  refine ⟨?_, isDouble_zero, fun y _ => by simp, fun y _ hne h => ?_⟩
  · rw [sub_pos]
    exact zpow_lt_zpow_right₀ (by norm_num) (by norm_num)
  simp only [sub_zero, abs_zero] at h
  exact absurd (abs_eq_zero.1 h.symm) hne

theorem isDouble_nat {n : Nat} (h : n ≤ 2 ^ 53) : IsDouble (n : ℚ) := by
  by_cases hn : n = 2 ^ 53
  · subst hn
    exact ⟨2 ^ 52, 1, by norm_num, by norm_num, by norm_num, by norm_num⟩
  · exact ⟨n, 0, by omega, by norm_num, by norm_num, by simp⟩

end Clever
