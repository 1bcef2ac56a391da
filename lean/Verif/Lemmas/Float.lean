import Verif.Model.Float
import Mathlib.Algebra.Order.Field.Power
import Mathlib.Tactic.Linarith
import Mathlib.Tactic.Positivity
import Mathlib.Tactic.FieldSimp
import Mathlib.Tactic.Ring

namespace Eprem

theorem pow2_eq (k : Int) : pow2 k = (2 : Rat) ^ k := by
  cases k with
  | ofNat n => simp [pow2]
  | negSucc n => simp [pow2, zpow_negSucc]

/-- exactly representable with 53 significant bits -/
def Rep (q : Rat) : Prop := ∃ m k : Int, q = m * 2 ^ k ∧ |m| < 2 ^ 53

theorem roundEven_int (z : Int) : roundEven (z : Rat) = z := by
  have : (z : Rat).floor = z := Rat.floor_intCast z
  simp [roundEven, this]

theorem fl_rep_pos {q : Rat} (hq : 0 < q) (h : Rep q) :
    ((roundEven (q / pow2 (ulpExp q)) : Int) : Rat) * pow2 (ulpExp q) = q := by
  obtain ⟨m, k, rfl, hm⟩ := h
  set q : Rat := (m : Rat) * 2 ^ k with hqdef
  have h2k : (0 : Rat) < 2 ^ k := by positivity
  -- 2^52 * 2^e ≤ q
  have hlow : (2 : Rat) ^ (52 : Int) * 2 ^ (ulpExp q) ≤ q := by
    unfold ulpExp
    simp only [pow2_eq]
    set e0 : Int := (Nat.log2 q.num.natAbs : Int) - (Nat.log2 q.den : Int) - 52 with he0
    split
    · -- q ≥ 2^(a-b-1) = 2^(e0+51)
      have hn : (2 : Rat) ^ (Nat.log2 q.num.natAbs) ≤ q.num.natAbs := by
        have : q.num.natAbs ≠ 0 := by simpa using (Rat.num_pos.2 hq).ne'
        exact_mod_cast Nat.log2_self_le this
      have hd : (q.den : Rat) ≤ 2 ^ (Nat.log2 q.den + 1) := by
        have := Nat.lt_log2_self (n := q.den)
        exact_mod_cast this.le
      have hqe : q = (q.num.natAbs : Rat) / q.den := by
        conv_lhs => rw [← Rat.num_div_den q]
        have : ((q.num.natAbs : Int)) = q.num := Int.natAbs_of_nonneg (Rat.num_pos.2 hq).le
        rw [← Int.cast_natCast (n := q.num.natAbs), this]
      have hdpos : (0 : Rat) < q.den := by exact_mod_cast q.den_pos
      have : (2 : Rat) ^ (52 : Int) * 2 ^ (e0 - 1) = 2 ^ (Nat.log2 q.num.natAbs) / 2 ^ (Nat.log2 q.den + 1) := by
        rw [← zpow_natCast, ← zpow_natCast, ← zpow_sub₀ (by norm_num), ← zpow_add₀ (by norm_num)]
        congr 1
        rw [he0]; push_cast; ring
      rw [this]
      conv_rhs => rw [hqe]
      exact div_le_div₀ (by positivity) hn hdpos hd
    · rename_i hlt
      have hlt := not_lt.1 hlt
      rw [le_div_iff₀ (by positivity)] at hlt
      exact hlt
  set e := ulpExp q
  -- e ≤ k
  have hek : e ≤ k := by
    by_contra hcon
    have hcon : k + 1 ≤ e := by omega
    have h1 : (2 : Rat) ^ (k + 1) ≤ 2 ^ e := zpow_le_zpow_right₀ (by norm_num) hcon
    have hm' : (m : Rat) < 2 ^ 53 := by
      have : m < 2 ^ 53 := lt_of_le_of_lt (le_abs_self m) hm
      exact_mod_cast this
    have h3 : q < 2 ^ 53 * 2 ^ k := by
      rw [hqdef]; exact mul_lt_mul_of_pos_right hm' h2k
    have h4 : (2 : Rat) ^ (52 : Int) * 2 ^ e ≥ 2 ^ 53 * 2 ^ k := by
      calc (2 : Rat) ^ (52 : Int) * 2 ^ e ≥ 2 ^ (52 : Int) * 2 ^ (k + 1) := by
            apply mul_le_mul_of_nonneg_left h1; positivity
        _ = 2 ^ 53 * 2 ^ k := by rw [zpow_add₀ (by norm_num)]; norm_num; ring
    linarith
  have hint : q / pow2 e = ((m * 2 ^ (k - e).toNat : Int) : Rat) := by
    rw [pow2_eq, hqdef]
    push_cast
    rw [mul_div_assoc, ← zpow_sub₀ (by norm_num), ← zpow_natCast]
    congr 2
    omega
  rw [hint, roundEven_int, ← hint]
  have : pow2 e ≠ 0 := by rw [pow2_eq]; positivity
  field_simp

/-- A number with at most 53 significant bits is not changed by `float`. -/
theorem fl_rep {q : Rat} (h : Rep q) : fl q = q := by
  unfold fl
  split
  · simp [*]
  · rename_i h0
    have ha : 0 < |q| := abs_pos.2 h0
    have hr : Rep |q| := by
      obtain ⟨m, k, rfl, hm⟩ := h
      refine ⟨|m|, k, ?_, by simpa using hm⟩
      rw [abs_mul, abs_of_pos (a := (2 : Rat) ^ k) (by positivity)]
      simp
    have := fl_rep_pos ha hr
    simp only [this]
    split
    · rename_i hneg; rw [abs_of_neg hneg]; simp
    · rename_i hneg; rw [abs_of_nonneg (not_lt.1 hneg)]

theorem fl_int (n : Int) (h : |n| < 2 ^ 53) : fl (n : Rat) = n :=
  fl_rep ⟨n, 0, by simp, h⟩

theorem fl_one : fl 1 = 1 := by
  have := fl_int 1 (by norm_num)
  simpa using this

end Eprem
