import Verif.Model.Double
import Mathlib.Data.Rat.Floor
import Mathlib.Algebra.Order.Floor.Ring
import Mathlib.Tactic.Linarith
import Mathlib.Tactic.Ring
import Mathlib.Tactic.Positivity
import Mathlib.Tactic.FieldSimp
import Mathlib.Algebra.Order.Field.Power

/-!
# Rounding to double precision
-/

namespace Clever

theorem pow2_eq (z : Int) : pow2 z = (2 : ℚ) ^ z := by
  cases z with
  | ofNat n => simp [pow2]
  | negSucc n => simp [pow2, zpow_negSucc]

theorem pow2_pos (z : Int) : 0 < pow2 z := by rw [pow2_eq]; positivity

theorem pow2_add (a b : Int) : pow2 (a + b) = pow2 a * pow2 b := by
  rw [pow2_eq, pow2_eq, pow2_eq, zpow_add₀ (by norm_num)]

theorem pow2_mono {a b : Int} (h : a ≤ b) : pow2 a ≤ pow2 b := by
  rw [pow2_eq, pow2_eq]
  exact zpow_le_zpow_right₀ (by norm_num) h

theorem pow2_lt {a b : Int} (h : pow2 a < pow2 b) : a < b := by
  by_contra hc
  exact absurd (pow2_mono (not_lt.1 hc)) (not_le.2 h)

theorem pow2_nat (n : Nat) : pow2 (n : Int) = (2 : ℚ) ^ n := by rw [pow2_eq, zpow_natCast]

theorem expo_spec {q : ℚ} (hq : 0 < q) : pow2 (expo q) ≤ q ∧ q < pow2 (expo q + 1) := by
  have hn0 : q.num.natAbs ≠ 0 := by
    have := Rat.num_pos.2 hq
    omega
  have hd0 : q.den ≠ 0 := q.den_nz
  have hqe : q = (q.num.natAbs : ℚ) / (q.den : ℚ) := by
    have h1 : (q.num.natAbs : Int) = q.num := Int.natAbs_of_nonneg (Rat.num_pos.2 hq).le
    have h2 : ((q.num.natAbs : Nat) : ℚ) = (q.num : ℚ) := by
      rw [← Int.cast_natCast (R := ℚ), h1]
    rw [h2, Rat.num_div_den]
  generalize hn : q.num.natAbs = n at hn0 hqe
  generalize hd : q.den = d at hd0 hqe
  have a1 : (2 : ℚ) ^ n.log2 ≤ n := by exact_mod_cast Nat.log2_self_le hn0
  have a2 : (n : ℚ) < 2 ^ (n.log2 + 1) := by exact_mod_cast Nat.lt_log2_self
  have b1 : (2 : ℚ) ^ d.log2 ≤ d := by exact_mod_cast Nat.log2_self_le hd0
  have b2 : (d : ℚ) < 2 ^ (d.log2 + 1) := by exact_mod_cast Nat.lt_log2_self
  have hdpos : (0 : ℚ) < d := by exact_mod_cast Nat.pos_of_ne_zero hd0
  have up : q < pow2 ((n.log2 : Int) - (d.log2 : Int) + 1) := by
    rw [hqe, div_lt_iff₀ hdpos]
    calc (n : ℚ) < 2 ^ (n.log2 + 1) := a2
      _ = pow2 ((n.log2 : Int) - (d.log2 : Int) + 1) * 2 ^ d.log2 := by
          rw [← pow2_nat, ← pow2_nat, ← pow2_add]; congr 1; push_cast; ring
      _ ≤ pow2 ((n.log2 : Int) - (d.log2 : Int) + 1) * d :=
          mul_le_mul_of_nonneg_left b1 (pow2_pos _).le
  have lo : pow2 ((n.log2 : Int) - (d.log2 : Int) - 1) ≤ q := by
    rw [hqe, le_div_iff₀ hdpos]
    calc pow2 ((n.log2 : Int) - (d.log2 : Int) - 1) * d
        ≤ pow2 ((n.log2 : Int) - (d.log2 : Int) - 1) * 2 ^ (d.log2 + 1) :=
          mul_le_mul_of_nonneg_left b2.le (pow2_pos _).le
      _ = 2 ^ n.log2 := by
          rw [← pow2_nat, ← pow2_nat, ← pow2_add]; congr 1; push_cast; ring
      _ ≤ n := a1
  unfold expo
  rw [hn, hd]
  by_cases h : pow2 ((n.log2 : Int) - (d.log2 : Int)) ≤ q
  · simp only [if_pos h]
    exact ⟨h, up⟩
  · simp only [if_neg h]
    refine ⟨lo, ?_⟩
    rw [Int.sub_add_cancel]
    exact not_le.1 h

theorem expo_mono {p q : ℚ} (hp : 0 < p) (h : p ≤ q) : expo p ≤ expo q := by
  have h1 := (expo_spec hp).1
  have h2 := (expo_spec (lt_of_lt_of_le hp h)).2
  have := pow2_lt (lt_of_le_of_lt h1 (lt_of_le_of_lt h h2))
  omega

theorem roundEven_cases (x : ℚ) : (roundEven x = x.floor ∧ x - (x.floor : ℚ) ≤ 1 / 2) ∨
    (roundEven x = x.floor + 1 ∧ 1 / 2 ≤ x - (x.floor : ℚ)) := by
  unfold roundEven
  simp only []
  by_cases h1 : x - (x.floor : ℚ) < 1 / 2
  · rw [if_pos h1]
    exact Or.inl ⟨rfl, h1.le⟩
  · rw [if_neg h1]
    by_cases h2 : 1 / 2 < x - (x.floor : ℚ)
    · rw [if_pos h2]
      exact Or.inr ⟨rfl, h2.le⟩
    · rw [if_neg h2]
      split
      · exact Or.inl ⟨rfl, not_lt.1 h2⟩
      · exact Or.inr ⟨rfl, not_lt.1 h1⟩

theorem floor_lt (x : ℚ) : x < (x.floor : ℚ) + 1 := by
  have := Rat.lt_floor_add_one x
  push_cast at this
  exact this

theorem roundEven_bounds (x : ℚ) : (roundEven x : ℚ) - 1 / 2 ≤ x ∧ x ≤ (roundEven x : ℚ) + 1 / 2 := by
  have h1 := Rat.floor_le x
  have h2 := floor_lt x
  rcases roundEven_cases x with ⟨h, h3⟩ | ⟨h, h3⟩
  · rw [h]; constructor <;> linarith
  · rw [h]; push_cast; constructor <;> linarith

theorem roundEven_int (n : Int) : roundEven (n : ℚ) = n := by
  unfold roundEven
  have : (n : ℚ).floor = n := Rat.floor_intCast n
  simp only [this, sub_self]
  rw [if_pos (by norm_num)]

theorem roundEven_mono {x y : ℚ} (h : x ≤ y) : roundEven x ≤ roundEven y := by
  have hf : x.floor ≤ y.floor := Rat.floor_monotone h
  rcases lt_or_eq_of_le hf with hlt | heq
  · have h1 : roundEven x ≤ x.floor + 1 := by
      rcases roundEven_cases x with ⟨h, -⟩ | ⟨h, -⟩ <;> rw [h] <;> omega
    have h2 : y.floor ≤ roundEven y := by
      rcases roundEven_cases y with ⟨h, -⟩ | ⟨h, -⟩ <;> rw [h] <;> omega
    omega
  · unfold roundEven
    simp only [← heq]
    have hr : x - (x.floor : ℚ) ≤ y - (x.floor : ℚ) := by linarith
    generalize x - (x.floor : ℚ) = r at hr
    generalize y - (x.floor : ℚ) = s at hr
    by_cases h1 : r < 1 / 2
    · rw [if_pos h1]
      split
      · exact le_refl _
      · split
        · omega
        · split <;> omega
    · rw [if_neg h1, if_neg (show ¬ s < 1 / 2 by linarith)]
      by_cases h2 : 1 / 2 < r
      · rw [if_pos h2, if_pos (lt_of_lt_of_le h2 hr)]
      · rw [if_neg h2]
        by_cases h3 : 1 / 2 < s
        · rw [if_pos h3]; split <;> omega
        · rw [if_neg h3]

/-! ## The rounding function -/

theorem fl_of_pos {q : ℚ} (hq : 0 < q) :
    fl q = (roundEven (q / pow2 (expo q - 52)) : ℚ) * pow2 (expo q - 52) := by
  unfold fl
  rw [if_neg (not_le.2 hq)]

theorem fl_of_nonpos {q : ℚ} (hq : q ≤ 0) : fl q = 0 := by
  unfold fl
  rw [if_pos hq]

theorem fl_zero : fl 0 = 0 := fl_of_nonpos (le_refl _)

theorem mantissa_bounds {q : ℚ} (hq : 0 < q) :
    (2 : ℚ) ^ 52 ≤ q / pow2 (expo q - 52) ∧ q / pow2 (expo q - 52) < (2 : ℚ) ^ 53 := by
  obtain ⟨h1, h2⟩ := expo_spec hq
  have e1 : (2 : ℚ) ^ 52 * pow2 (expo q - 52) = pow2 (expo q) := by
    have : (2 : ℚ) ^ 52 = pow2 52 := by rw [pow2_eq]; norm_num
    rw [this, ← pow2_add]; congr 1; ring
  have e2 : (2 : ℚ) ^ 53 * pow2 (expo q - 52) = pow2 (expo q + 1) := by
    have : (2 : ℚ) ^ 53 = pow2 53 := by rw [pow2_eq]; norm_num
    rw [this, ← pow2_add]; congr 1; ring
  rw [le_div_iff₀ (pow2_pos _), div_lt_iff₀ (pow2_pos _), e1, e2]
  exact ⟨h1, h2⟩

theorem roundEven_range {x : ℚ} {a b : Int} (h1 : (a : ℚ) ≤ x) (h2 : x ≤ (b : ℚ)) :
    a ≤ roundEven x ∧ roundEven x ≤ b := by
  have := roundEven_mono h1
  have := roundEven_mono h2
  rw [roundEven_int] at *
  exact ⟨by assumption, by assumption⟩

theorem fl_range {q : ℚ} (hq : 0 < q) : pow2 (expo q) ≤ fl q ∧ fl q ≤ pow2 (expo q + 1) := by
  obtain ⟨h1, h2⟩ := mantissa_bounds hq
  obtain ⟨r1, r2⟩ := roundEven_range (a := 2 ^ 52) (b := 2 ^ 53) (by push_cast; exact h1) (by push_cast; exact h2.le)
  rw [fl_of_pos hq]
  have e1 : pow2 (expo q) = (2 : ℚ) ^ 52 * pow2 (expo q - 52) := by
    have : (2 : ℚ) ^ 52 = pow2 52 := by rw [pow2_eq]; norm_num
    rw [this, ← pow2_add]; congr 1; ring
  have e2 : pow2 (expo q + 1) = (2 : ℚ) ^ 53 * pow2 (expo q - 52) := by
    have : (2 : ℚ) ^ 53 = pow2 53 := by rw [pow2_eq]; norm_num
    rw [this, ← pow2_add]; congr 1; ring
  rw [e1, e2]
  constructor
  · apply mul_le_mul_of_nonneg_right _ (pow2_pos _).le
    exact_mod_cast r1
  · apply mul_le_mul_of_nonneg_right _ (pow2_pos _).le
    exact_mod_cast r2

theorem fl_pos {q : ℚ} (hq : 0 < q) : 0 < fl q := lt_of_lt_of_le (pow2_pos _) (fl_range hq).1

theorem fl_nonneg (q : ℚ) : 0 ≤ fl q := by
  by_cases h : 0 < q
  · exact (fl_pos h).le
  · rw [fl_of_nonpos (not_lt.1 h)]

theorem fl_mono {p q : ℚ} (h : p ≤ q) : fl p ≤ fl q := by
  by_cases hp : 0 < p
  · have hq := lt_of_lt_of_le hp h
    rcases lt_or_eq_of_le (expo_mono hp h) with hlt | heq
    · exact le_trans (fl_range hp).2 (le_trans (pow2_mono (by omega)) (fl_range hq).1)
    · rw [fl_of_pos hp, fl_of_pos hq, heq]
      apply mul_le_mul_of_nonneg_right _ (pow2_pos _).le
      have := roundEven_mono (div_le_div_of_nonneg_right h (pow2_pos (expo q - 52)).le)
      exact_mod_cast this
  · rw [fl_of_nonpos (not_lt.1 hp)]
    exact fl_nonneg q

/-- Numbers with at most 53 significant binary digits are not changed. -/
theorem fl_exact {m : Nat} (hm : m ≤ 2 ^ 53) (z : Int) : fl ((m : ℚ) * pow2 z) = (m : ℚ) * pow2 z := by
  by_cases h0 : m = 0
  · subst h0; simp [fl_zero]
  have hmpos : (0 : ℚ) < m := by exact_mod_cast Nat.pos_of_ne_zero h0
  have hq : (0 : ℚ) < (m : ℚ) * pow2 z := mul_pos hmpos (pow2_pos z)
  obtain ⟨h1, h2⟩ := expo_spec hq
  rw [fl_of_pos hq]
  generalize hE : expo ((m : ℚ) * pow2 z) = e at h1 h2
  have hint : ∃ n : Int, (m : ℚ) * pow2 z / pow2 (e - 52) = (n : ℚ) := by
    by_cases hz : e - 52 ≤ z
    · obtain ⟨k, hk⟩ : ∃ k : Nat, z = (e - 52) + (k : Int) := ⟨(z - (e - 52)).toNat, by omega⟩
      refine ⟨(m : Int) * 2 ^ k, ?_⟩
      rw [hk, pow2_add, pow2_nat, div_eq_iff (pow2_pos _).ne']
      push_cast
      ring
    · have hle : (m : ℚ) * pow2 z ≤ pow2 e := by
        calc (m : ℚ) * pow2 z ≤ (2 : ℚ) ^ 53 * pow2 z := by
              apply mul_le_mul_of_nonneg_right _ (pow2_pos _).le
              exact_mod_cast hm
          _ = pow2 (53 + z) := by rw [pow2_add, pow2_eq 53]; norm_num
          _ ≤ pow2 e := pow2_mono (by omega)
      have heq : (m : ℚ) * pow2 z = pow2 e := le_antisymm hle h1
      refine ⟨2 ^ 52, ?_⟩
      rw [heq, div_eq_iff (pow2_pos _).ne']
      have : (((2 : Int) ^ 52 : Int) : ℚ) = pow2 52 := by rw [pow2_eq]; norm_num
      rw [this, ← pow2_add]; congr 1; ring
  obtain ⟨n, hn⟩ := hint
  rw [hn, roundEven_int, ← hn, div_mul_cancel₀ _ (pow2_pos _).ne']

theorem fl_nat {n : Nat} (h : n ≤ 2 ^ 53) : fl (n : ℚ) = n := by
  have := fl_exact h 0
  rwa [pow2_eq, zpow_zero, mul_one] at this

theorem fl_one : fl 1 = 1 := by simpa using fl_nat (n := 1) (by norm_num)

theorem fl_idem (q : ℚ) : fl (fl q) = fl q := by
  by_cases hq : 0 < q
  · obtain ⟨h1, h2⟩ := mantissa_bounds hq
    obtain ⟨r1, r2⟩ := roundEven_range (a := 2 ^ 52) (b := 2 ^ 53) (by push_cast; exact h1) (by push_cast; exact h2.le)
    have e : fl q = ((roundEven (q / pow2 (expo q - 52))).toNat : ℚ) * pow2 (expo q - 52) := by
      rw [fl_of_pos hq]
      congr 1
      rw [← Int.cast_natCast (R := ℚ), Int.toNat_of_nonneg (le_trans (by norm_num) r1)]
    rw [e]
    exact fl_exact (by omega) _
  · rw [fl_of_nonpos (not_lt.1 hq), fl_zero]

/-- The relative error of rounding. -/
theorem fl_error {q : ℚ} (hq : 0 ≤ q) : q * (1 - 1 / 2 ^ 53) ≤ fl q ∧ fl q ≤ q * (1 + 1 / 2 ^ 53) := by
  rcases lt_or_eq_of_le hq with hq | rfl
  · obtain ⟨h1, -⟩ := mantissa_bounds hq
    obtain ⟨b1, b2⟩ := roundEven_bounds (q / pow2 (expo q - 52))
    rw [fl_of_pos hq]
    generalize hu : pow2 (expo q - 52) = u at h1 b1 b2
    have hup : 0 < u := by rw [← hu]; exact pow2_pos _
    generalize hx : q / u = x at h1 b1 b2
    have hqx : q = x * u := by rw [← hx, div_mul_cancel₀ _ hup.ne']
    rw [hqx]
    have h3 : (1 : ℚ) / 2 ≤ x * (1 / 2 ^ 53) := by
      have : (2 : ℚ) ^ 52 * (1 / 2 ^ 53) = 1 / 2 := by norm_num
      rw [← this]
      exact mul_le_mul_of_nonneg_right h1 (by positivity)
    constructor
    · have : x * u * (1 - 1 / 2 ^ 53) = (x - x * (1 / 2 ^ 53)) * u := by ring
      rw [this]
      exact mul_le_mul_of_nonneg_right (by linarith) hup.le
    · have : x * u * (1 + 1 / 2 ^ 53) = (x + x * (1 / 2 ^ 53)) * u := by ring
      rw [this]
      exact mul_le_mul_of_nonneg_right (by linarith) hup.le
  · simp [fl_zero]

theorem roundEven_nearest (x : ℚ) (n : Int) : |(roundEven x : ℚ) - x| ≤ |(n : ℚ) - x| := by
  have h0 : |(roundEven x : ℚ) - x| ≤ 1 / 2 := by
    obtain ⟨b1, b2⟩ := roundEven_bounds x
    rw [abs_le]; constructor <;> linarith
  by_cases hn : n = roundEven x
  · rw [hn]
  · have h1 : (1 : ℚ) ≤ |(n : ℚ) - (roundEven x : ℚ)| := by
      have : (1 : Int) ≤ |n - roundEven x| := Int.one_le_abs (sub_ne_zero.2 hn)
      exact_mod_cast this
    have h2 : |(n : ℚ) - (roundEven x : ℚ)| ≤ |(n : ℚ) - x| + |(roundEven x : ℚ) - x| := by
      have := abs_sub_le (n : ℚ) x (roundEven x : ℚ)
      rwa [abs_sub_comm x] at this
    linarith

/-- Of two nearest integers the even one is taken. -/
theorem roundEven_even (x : ℚ) (h : |(roundEven x : ℚ) - x| = 1 / 2) : roundEven x % 2 = 0 := by
  have hx : x - (x.floor : ℚ) = 1 / 2 := by
    rcases roundEven_cases x with ⟨he, -⟩ | ⟨he, h3⟩
    · rw [he, abs_sub_comm, abs_of_nonneg (by linarith [Rat.floor_le x])] at h
      exact h
    · rw [he] at h
      push_cast at h
      rw [abs_of_nonneg (by linarith [floor_lt x])] at h
      linarith
  unfold roundEven
  simp only [hx]
  rw [if_neg (by norm_num), if_neg (by norm_num)]
  split
  · assumption
  · omega

/-- Among all doubles, `fl q` is one of those nearest to `q`. -/
theorem fl_nearest {q : ℚ} (hq : 0 < q) {m : Nat} (hm : m ≤ 2 ^ 53) (z : Int) :
    |fl q - q| ≤ |(m : ℚ) * pow2 z - q| := by
  obtain ⟨h1, h2⟩ := expo_spec hq
  have e1 : (((2 ^ 52 : Int)) : ℚ) * pow2 (expo q - 52) = pow2 (expo q) := by
    have : (((2 ^ 52 : Int)) : ℚ) = pow2 52 := by rw [pow2_eq]; norm_num
    rw [this, ← pow2_add]; congr 1; ring
  have e2 : (((2 ^ 53 : Int)) : ℚ) * pow2 (expo q - 52) = pow2 (expo q + 1) := by
    have : (((2 ^ 53 : Int)) : ℚ) = pow2 53 := by rw [pow2_eq]; norm_num
    rw [this, ← pow2_add]; congr 1; ring
  have grid : ∀ n : Int, |fl q - q| ≤ |(n : ℚ) * pow2 (expo q - 52) - q| := by
    intro n
    have hu := pow2_pos (expo q - 52)
    rw [fl_of_pos hq]
    generalize pow2 (expo q - 52) = u at hu
    have : ∀ k : Int, |(k : ℚ) * u - q| = |(k : ℚ) - q / u| * u := by
      intro k
      rw [← abs_of_pos hu, ← abs_mul, abs_of_pos hu, sub_mul, div_mul_cancel₀ _ hu.ne']
    rw [this, this]
    exact mul_le_mul_of_nonneg_right (roundEven_nearest _ _) hu.le
  by_cases hlo : (m : ℚ) * pow2 z < pow2 (expo q)
  · have := grid (2 ^ 52)
    rw [e1, abs_of_nonpos (a := pow2 (expo q) - q) (by linarith)] at this
    rw [abs_of_nonpos (a := (m : ℚ) * pow2 z - q) (by linarith)]
    linarith
  · by_cases hhi : pow2 (expo q + 1) ≤ (m : ℚ) * pow2 z
    · have := grid (2 ^ 53)
      rw [e2, abs_of_nonneg (a := pow2 (expo q + 1) - q) (by linarith)] at this
      rw [abs_of_nonneg (a := (m : ℚ) * pow2 z - q) (by linarith)]
      linarith
    · have hpos : 0 < (m : ℚ) * pow2 z := lt_of_lt_of_le (pow2_pos _) (not_lt.1 hlo)
      obtain ⟨g1, g2⟩ := expo_spec hpos
      have hE : expo ((m : ℚ) * pow2 z) = expo q := by
        have a1 := pow2_lt (lt_of_le_of_lt (not_lt.1 hlo) g2)
        have a2 := pow2_lt (lt_of_le_of_lt g1 (not_le.1 hhi))
        omega
      have hf := fl_exact hm z
      rw [fl_of_pos hpos, hE] at hf
      rw [← hf]
      exact grid _

end Clever
