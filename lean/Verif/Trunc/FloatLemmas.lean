import Verif.Trunc.Lemmas
import Mathlib.Tactic.FieldSimp
import Mathlib.Tactic.NormNum
import Mathlib.Algebra.Order.Field.Power

/-! Helper lemmas for the truncation of floating point numbers. -/
namespace Verif.Trunc

variable {w : Nat}

theorem popcount_not {y : BitVec w} {j : Nat} (hy : y.toNat = 2 ^ j - 1) (hj : j ≤ w) :
    popcount (~~~ y) = w - j := by
  unfold popcount
  have h1 : ∀ i ∈ List.range w, (~~~ y).getLsbD i = decide (j ≤ i) := by
    intro i hi
    have hi' : i < w := List.mem_range.1 hi
    have : y.getLsbD i = decide (i < j) := by
      show y.toNat.testBit i = _
      rw [hy, Nat.testBit_two_pow_sub_one]
    rw [BitVec.getLsbD_not, this]
    by_cases h : j ≤ i
    · simp [hi', h]
    · have : i < j := by omega
      simp [h, this]
  rw [List.filter_congr h1]
  obtain ⟨d, rfl⟩ : ∃ d, w = j + d := ⟨w - j, by omega⟩
  rw [List.range_add, List.filter_append, List.filter_eq_nil_iff.2, List.nil_append,
    List.filter_eq_self.2]
  · simp
  · intro a ha
    simp at ha
    obtain ⟨b, _, rfl⟩ := ha
    simp
  · intro a ha
    simp at ha ⊢
    exact ha

theorem countZeros_eq {shifts : List Nat} {t : Nat} (hs : shifts = doubling 1 t) (hw : w ≤ 2 ^ t)
    {r : Int} {j : Nat} (h0 : 0 ≤ r) (hj : BitLen r.toNat j) (hjw : j < w) :
    countZeros shifts (BitVec.ofInt w r) = w - j := by
  have hr : r < 2 ^ j := by
    have := hj.1
    have h2 : ((2 ^ j : Nat) : Int) = 2 ^ j := by norm_cast
    omega
  have hle : (2 : Int) ^ j ≤ 2 ^ (w - 1) := pow_le_pow_right₀ (by decide) (by omega)
  have hle2 : (2 : Int) ^ (w - 1) ≤ 2 ^ w := pow_le_pow_right₀ (by decide) (by omega)
  have hn : (BitVec.ofInt w r).toNat = r.toNat := by
    have := toNat_ofInt_of (w := w) h0 (by omega)
    omega
  have hmsb : (BitVec.ofInt w r).msb = false := by
    rw [BitVec.msb_eq_toInt, BitVec.toInt_ofInt_eq_self (by omega) (by
      have : (0 : Int) < 2 ^ (w - 1) := by positivity
      omega) (by omega)]
    simpa using h0
  unfold countZeros
  exact popcount_not (smear_toNat hmsb hs hw (by rwa [hn])) (by omega)

/-- What is used about a format. -/
structure Fmt.OK (F : Fmt) (t : Nat) : Prop where
  hw : F.w = F.p + F.eb + 1
  heb : 2 ≤ F.eb
  hp : 2 ≤ F.p
  hs : F.shifts = doubling 1 t
  ht : F.w ≤ 2 ^ t

theorem f32_ok : f32.OK 5 := ⟨by decide, by decide, by decide, by decide, by decide⟩
theorem f64_ok : f64.OK 6 := ⟨by decide, by decide, by decide, by decide, by decide⟩

namespace Fmt
variable {F : Fmt}

/-- The bit pattern with sign `s`, exponent field `e` and mantissa field `m`. -/
def pack (F : Fmt) (s e m : Nat) : BitVec F.w :=
  BitVec.ofInt F.w (m + (e + -(s : Int) * 2 ^ F.eb) * 2 ^ F.p)

/-- The value with sign `s`, exponent field `e` and mantissa field `m`. -/
def value (F : Fmt) (s e m : Nat) : ℚ :=
  (if s = 1 then -1 else 1) *
    (if e = 0 then (m : ℚ) * (2 : ℚ) ^ (1 - F.bias - F.p : ℤ)
      else ((2 ^ F.p + m : ℕ) : ℚ) * (2 : ℚ) ^ (e - F.bias - F.p : ℤ))

theorem two_pow_split {t : Nat} (h : F.OK t) : (2 : Int) ^ F.w = 2 * (2 ^ F.eb * 2 ^ F.p) := by
  rw [h.hw, pow_succ, pow_add]; ring

theorem pack_toNat {t : Nat} (h : F.OK t) {s e m : Nat} (hs : s ≤ 1) (he : e < 2 ^ F.eb)
    (hm : m < 2 ^ F.p) : (F.pack s e m).toNat = m + 2 ^ F.p * (e + 2 ^ F.eb * s) := by
  have hc := toNat_ofInt_cast (w := F.w) (m + (e + -(s : Int) * 2 ^ F.eb) * 2 ^ F.p)
  have hz : ((m + 2 ^ F.p * (e + 2 ^ F.eb * s) : Nat) : Int) =
      (m + (e + -(s : Int) * 2 ^ F.eb) * 2 ^ F.p) + 2 ^ F.w * s := by
    rw [two_pow_split h]; push_cast; ring
  have hlt : ((m + 2 ^ F.p * (e + 2 ^ F.eb * s) : Nat) : Int) < 2 ^ F.w := by
    rw [two_pow_split h]
    have h1 : e + 2 ^ F.eb * s + 1 ≤ 2 * 2 ^ F.eb := by
      have : 2 ^ F.eb * s ≤ 2 ^ F.eb * 1 := Nat.mul_le_mul_left _ hs
      omega
    have h2 : 2 ^ F.p * (e + 2 ^ F.eb * s + 1) ≤ 2 ^ F.p * (2 * 2 ^ F.eb) :=
      Nat.mul_le_mul_left _ h1
    have h3 : m + 2 ^ F.p * (e + 2 ^ F.eb * s) < 2 * (2 ^ F.eb * 2 ^ F.p) := by
      calc m + 2 ^ F.p * (e + 2 ^ F.eb * s) < 2 ^ F.p * (e + 2 ^ F.eb * s + 1) := by
            rw [Nat.mul_add (2 ^ F.p) (e + _) 1]; omega
        _ ≤ _ := h2
        _ = _ := by ring
    exact_mod_cast h3
  have : (((F.pack s e m).toNat : Nat) : Int) = ((m + 2 ^ F.p * (e + 2 ^ F.eb * s) : Nat) : Int) := by
    unfold pack
    rw [hc, ← Int.emod_eq_of_lt (Int.natCast_nonneg _) hlt, hz, Int.add_mul_emod_self_left]
  exact_mod_cast this

theorem pack_msb {t : Nat} (h : F.OK t) {s e m : Nat} (hs : s ≤ 1) (he : e < 2 ^ F.eb)
    (hm : m < 2 ^ F.p) : (F.pack s e m).msb = decide (s = 1) := by
  rw [BitVec.msb_eq_decide, pack_toNat h hs he hm, Bool.eq_iff_iff, decide_eq_true_iff,
    decide_eq_true_iff, show F.w - 1 = F.p + F.eb by have := h.hw; omega, pow_add]
  constructor
  · intro hle
    by_contra hc
    have : s = 0 := by omega
    subst this
    have h2 : 2 ^ F.p * (e + 1) ≤ 2 ^ F.p * 2 ^ F.eb := Nat.mul_le_mul_left _ he
    rw [Nat.mul_add] at h2
    simp only [Nat.mul_zero, Nat.add_zero] at hle
    omega
  · rintro rfl
    rw [Nat.mul_one, Nat.mul_add]
    omega

theorem decode_pack {t : Nat} (h : F.OK t) {s e m : Nat} (hs : s ≤ 1) (he : e < 2 ^ F.eb)
    (hm : m < 2 ^ F.p) :
    F.decode (F.pack s e m) =
      if e = 2 ^ F.eb - 1 then (if m = 0 then .inf (decide (s = 1)) else .nan)
      else .fin (F.value s e m) := by
  have e1 : (m + 2 ^ F.p * (e + 2 ^ F.eb * s)) / 2 ^ F.p % 2 ^ F.eb = e := by
    rw [Nat.add_mul_div_left _ _ (by positivity), Nat.div_eq_of_lt hm, Nat.zero_add,
      Nat.add_mul_mod_self_left, Nat.mod_eq_of_lt he]
  have e2 : (m + 2 ^ F.p * (e + 2 ^ F.eb * s)) % 2 ^ F.p = m := by
    rw [Nat.add_mul_mod_self_left, Nat.mod_eq_of_lt hm]
  unfold decode value
  simp only [pack_toNat h hs he hm, pack_msb h hs he hm, e1, e2, decide_eq_true_eq]
  by_cases h1 : e = 2 ^ F.eb - 1
  · simp [h1]
  · by_cases h2 : e = 0
    · simp [h2]
    · simp only [h1, h2, if_false]

theorem exists_pack {t : Nat} (h : F.OK t) (b : BitVec F.w) :
    ∃ s e m, s ≤ 1 ∧ e < 2 ^ F.eb ∧ m < 2 ^ F.p ∧ b = F.pack s e m := by
  have hlt := b.isLt
  have hw : 2 ^ F.w = 2 ^ F.p * (2 ^ F.eb * 2) := by rw [h.hw, pow_succ, pow_add]; ring
  refine ⟨b.toNat / 2 ^ F.p / 2 ^ F.eb, b.toNat / 2 ^ F.p % 2 ^ F.eb, b.toNat % 2 ^ F.p,
    ?_, Nat.mod_lt _ (by positivity), Nat.mod_lt _ (by positivity), ?_⟩
  · have : b.toNat / 2 ^ F.p / 2 ^ F.eb < 2 := by
      rw [Nat.div_lt_iff_lt_mul (by positivity), Nat.div_lt_iff_lt_mul (by positivity)]
      calc b.toNat < 2 ^ F.w := hlt
        _ = _ := by rw [hw]; ring
    omega
  · apply BitVec.eq_of_toNat_eq
    rw [pack_toNat h]
    · rw [Nat.mod_add_div, Nat.mod_add_div]
    · have : b.toNat / 2 ^ F.p / 2 ^ F.eb < 2 := by
        rw [Nat.div_lt_iff_lt_mul (by positivity), Nat.div_lt_iff_lt_mul (by positivity)]
        calc b.toNat < 2 ^ F.w := hlt
          _ = _ := by rw [hw]; ring
      omega
    · exact Nat.mod_lt _ (by positivity)
    · exact Nat.mod_lt _ (by positivity)

theorem pack_toInt {t : Nat} (h : F.OK t) {s e m : Nat} (hs : s ≤ 1) (he : e < 2 ^ F.eb)
    (hm : m < 2 ^ F.p) :
    (F.pack s e m).toInt = m + (e + -(s : Int) * 2 ^ F.eb) * 2 ^ F.p := by
  unfold pack
  have hw := h.hw
  have hp : (2 : Int) ^ (F.w - 1) = 2 ^ F.eb * 2 ^ F.p := by
    rw [show F.w - 1 = F.eb + F.p by omega, pow_add]
  have he' : (e : Int) + 1 ≤ 2 ^ F.eb := by exact_mod_cast he
  have hm' : (m : Int) < 2 ^ F.p := by exact_mod_cast hm
  have hP : (0 : Int) < 2 ^ F.p := by positivity
  have hE : (0 : Int) < 2 ^ F.eb := by positivity
  rw [BitVec.toInt_ofInt_eq_self (by omega)] <;> rw [hp] <;> interval_cases s <;>
    simp only [Nat.cast_zero, Nat.cast_one, neg_zero, zero_mul, add_zero] <;> nlinarith

theorem round_range {p k : Nat} {M : Int} (h0 : 2 ^ p ≤ M) (h1 : M < 2 ^ (p + 1)) :
    roundInt (2 ^ k) M = 0 ∨
      (2 ^ p ≤ roundInt (2 ^ k) M ∧ roundInt (2 ^ k) M ≤ 2 ^ (p + 1)) := by
  have hpos : (0 : Int) < 2 ^ k := by positivity
  have hp0 : (0 : Int) < 2 ^ p := by positivity
  rcases Nat.lt_or_ge p k with hk | hk
  · have hle : (2 : Int) ^ (p + 1) ≤ 2 ^ k := pow_le_pow_right₀ (by decide) hk
    have hd : M / 2 ^ k = 0 := Int.ediv_eq_zero_of_lt (by omega) (by omega)
    have hm : M % 2 ^ k = M := Int.emod_eq_of_lt (by omega) (by omega)
    unfold roundInt
    rw [hd, hm]
    split
    · left; simp
    · right
      rename_i hc
      have hk2 : k < p + 2 := by
        have : (2 : Int) ^ k < 2 ^ (p + 2) := by rw [pow_succ 2 (p + 1)]; omega
        exact (pow_lt_pow_iff_right₀ (by decide)).1 this
      have : k = p + 1 := by omega
      subst this
      rw [pow_succ] at *
      omega
  · right
    obtain ⟨⟨a, ha⟩, h2, _⟩ := roundInt_spec hpos M
    rw [ha] at h2 ⊢
    obtain ⟨d, rfl⟩ : ∃ d, p = k + d := ⟨p - k, by omega⟩
    have hab := abs_le.1 (show |2 ^ k * a - M| ≤ |2 ^ k * a - M| from le_refl _)
    have e1 : (2 : Int) ^ (k + d) = 2 ^ k * 2 ^ d := pow_add _ _ _
    have e2 : (2 : Int) ^ (k + d + 1) = 2 ^ k * (2 * 2 ^ d) := by rw [pow_succ, pow_add]; ring
    rw [e1] at h0
    rw [e2] at h1
    rw [e1, e2]
    constructor
    · apply mul_le_mul_of_nonneg_left _ (le_of_lt hpos)
      by_contra hc
      have : a + 1 ≤ 2 ^ d := by omega
      nlinarith
    · apply mul_le_mul_of_nonneg_left _ (le_of_lt hpos)
      by_contra hc
      have : 2 * 2 ^ d + 1 ≤ a := by omega
      nlinarith

theorem truncWith_pack {t : Nat} (h : F.OK t) {s e m : Nat} (hs : s ≤ 1)
    (he : e < 2 ^ F.eb) (hm : m < 2 ^ F.p) (ie : BitVec F.w) {k : Nat}
    (hmsb : ie.msb = false) (hk : BitLen ie.toNat k)
    (hkw : k + 2 ≤ F.w) :
    (roundInt (2 ^ k) (2 ^ F.p + m) = 0 ∧
      F.truncWith (F.pack s e m) ie = F.pack s 0 0) ∨
    (∃ m' : Nat, m' < 2 ^ F.p ∧ roundInt (2 ^ k) (2 ^ F.p + m) = 2 ^ F.p + m' ∧
      F.truncWith (F.pack s e m) ie = F.pack s e m') ∨
    (roundInt (2 ^ k) (2 ^ F.p + m) = 2 ^ (F.p + 1) ∧ (e + 1 < 2 ^ F.eb →
      F.truncWith (F.pack s e m) ie = F.pack s (e + 1) 0)) := by
  have hw := h.hw
  have heb := h.heb
  have hpp := h.hp
  have hP : (0 : Int) < 2 ^ F.p := by positivity
  have hE : (0 : Int) < 2 ^ F.eb := by positivity
  have he' : (e : Int) < 2 ^ F.eb := by exact_mod_cast he
  have hm' : (m : Int) < 2 ^ F.p := by exact_mod_cast hm
  have hmask : ∀ j, j ≤ F.w → BitVec.ofNat F.w (2 ^ j - 1) = BitVec.ofInt F.w (2 ^ j - 1) := by
    intro j _
    rw [← ofInt_natCast]
    congr 1
    rw [Nat.cast_sub Nat.one_le_two_pow]; norm_cast
  have hpre : (F.pack s e m).sshiftRight F.p = BitVec.ofInt F.w (e + -(s : Int) * 2 ^ F.eb) := by
    rw [sshiftRight_eq_ofInt, pack_toInt h hs he hm, Int.add_mul_ediv_right _ _ (ne_of_gt hP),
      Int.ediv_eq_zero_of_lt (by omega) hm', zero_add]
  have hpow : BitVec.ofInt F.w (e + -(s : Int) * 2 ^ F.eb) &&& BitVec.ofNat F.w (2 ^ F.eb - 1) =
      BitVec.ofInt F.w e := by
    rw [hmask _ (by omega), ofInt_and_mask _ (by omega), Int.add_mul_emod_self_right,
      Int.emod_eq_of_lt (by omega) he']
  have hpreI : (BitVec.ofInt F.w (e + -(s : Int) * 2 ^ F.eb)).toInt = e + -(s : Int) * 2 ^ F.eb := by
    have : (2 : Int) ^ F.eb ≤ 2 ^ (F.w - 1) := pow_le_pow_right₀ (by decide) (by omega)
    apply BitVec.toInt_ofInt_eq_self (by omega) <;> interval_cases s <;>
      simp only [Nat.cast_zero, Nat.cast_one, neg_zero, zero_mul, add_zero] <;> omega
  have hS : (BitVec.ofInt F.w (e + -(s : Int) * 2 ^ F.eb)).sshiftRight F.eb =
      BitVec.ofInt F.w (-(s : Int)) := by
    rw [sshiftRight_eq_ofInt, hpreI, Int.add_mul_ediv_right _ _ (ne_of_gt hE),
      Int.ediv_eq_zero_of_lt (by omega) he', zero_add]
  have hman : (F.pack s e m &&& BitVec.ofNat F.w (2 ^ F.p - 1)) + BitVec.ofNat F.w (2 ^ F.p) =
      BitVec.ofInt F.w (2 ^ F.p + m) := by
    unfold pack
    rw [hmask _ (by omega), ofInt_and_mask _ (by omega), Int.add_mul_emod_self_right,
      Int.emod_eq_of_lt (by omega) hm', ← ofInt_natCast, ← BitVec.ofInt_add]
    congr 1; push_cast; ring
  have hp1 : (2 : Int) ^ (F.p + 1) ≤ 2 ^ (F.w - 2) := pow_le_pow_right₀ (by decide) (by omega)
  have hp2 : (2 : Int) ^ (F.w - 2) ≤ 2 ^ (F.w - 1) := pow_le_pow_right₀ (by decide) (by omega)
  have hp3 : (2 : Int) ^ (F.p + 1) = 2 * 2 ^ F.p := by rw [pow_succ]; ring
  have hmanI : (BitVec.ofInt F.w (2 ^ F.p + (m : Int))).toInt = 2 ^ F.p + m :=
    BitVec.toInt_ofInt_eq_self (by omega) (by omega) (by omega)
  have htr : bitTruncate F.shifts (BitVec.ofInt F.w (2 ^ F.p + (m : Int))) ie =
      BitVec.ofInt F.w (roundInt (2 ^ k) (2 ^ F.p + m)) := by
    rw [bitTruncate_eq hmsb h.hs h.ht hk hkw, hmanI]
  have hrange := round_range (p := F.p) (k := k) (M := 2 ^ F.p + m) (by omega) (by omega)
  unfold truncWith
  simp only [hpre, hpow, hS, hman, htr]
  generalize roundInt (2 ^ k) (2 ^ F.p + (m : Int)) = R at *
  have hzs : ∀ (e' m' : Nat), e' < 2 ^ F.eb → m' < 2 ^ F.p →
      (BitVec.ofInt F.w m' ||| (BitVec.ofInt F.w e' ||| BitVec.ofInt F.w (-(s : Int)) <<< F.eb) <<< F.p) =
        F.pack s e' m' := by
    intro e' m' h1 h2
    have h1' : (e' : Int) < 2 ^ F.eb := by exact_mod_cast h1
    have h2' : (m' : Int) < 2 ^ F.p := by exact_mod_cast h2
    rw [ofInt_shiftLeft, ofInt_or_disjoint _ (by omega) (by omega) h1', ofInt_shiftLeft,
      ofInt_or_disjoint _ (by omega) (by omega) h2']
    rfl
  rcases hrange with hR | ⟨hR1, hR2⟩
  · left
    refine ⟨hR, ?_⟩
    subst hR
    have hz : countZeros F.shifts (BitVec.ofInt F.w 0) = F.w := by
      rw [countZeros_eq h.hs h.ht (j := 0) (by omega) ⟨by simp, Or.inl rfl⟩ (by omega)]; omega
    rw [hz]
    have := hzs 0 0 (by positivity) (by positivity)
    simpa [shl] using this
  · right
    rcases lt_or_eq_of_le hR2 with hlt | heq
    · left
      obtain ⟨m', hm1⟩ := Int.eq_ofNat_of_zero_le (show 0 ≤ R - 2 ^ F.p by omega)
      have hm2 : m' < 2 ^ F.p := by
        have : (m' : Int) < 2 ^ F.p := by omega
        exact_mod_cast this
      have hRm : R = 2 ^ F.p + m' := by omega
      refine ⟨m', hm2, hRm, ?_⟩
      subst hRm
      have hz : countZeros F.shifts (BitVec.ofInt F.w (2 ^ F.p + (m' : Int))) = F.eb := by
        rw [countZeros_eq h.hs h.ht (j := F.p + 1) (by omega) ?_ (by omega)]
        · omega
        · have : (2 ^ F.p + (m' : Int)).toNat = 2 ^ F.p + m' := by
            have h5 : ((2 ^ F.p : Nat) : Int) = 2 ^ F.p := by norm_cast
            omega
          rw [this]
          refine ⟨by rw [pow_succ]; omega, Or.inr (by rw [pow_succ]; omega)⟩
      rw [hz, if_pos (by omega)]
      have h0 : F.shl (BitVec.ofInt F.w (2 ^ F.p + (m' : Int))) ((F.eb : Int) - F.eb) =
          BitVec.ofInt F.w (2 ^ F.p + (m' : Int)) := by simp [shl]
      rw [h0, hmask _ (by omega), ofInt_and_mask _ (by omega), Int.add_emod_left,
        Int.emod_eq_of_lt (by omega) (by omega), sub_self, ← ofInt_sub', sub_zero]
      exact hzs e m' he hm2
    · right
      refine ⟨heq, fun hlast => ?_⟩
      subst heq
      have hz : countZeros F.shifts (BitVec.ofInt F.w (2 ^ (F.p + 1))) = F.eb - 1 := by
        rw [countZeros_eq h.hs h.ht (j := F.p + 2) (by omega) ?_ (by omega)]
        · omega
        · have : ((2 : Int) ^ (F.p + 1)).toNat = 2 ^ (F.p + 1) := by
            have h5 : ((2 ^ (F.p + 1) : Nat) : Int) = 2 ^ (F.p + 1) := by norm_cast
            omega
          rw [this]
          refine ⟨by rw [pow_succ 2 (F.p + 1)]; have : 0 < 2 ^ (F.p + 1) := by positivity
                     omega, Or.inr (by rw [pow_succ 2 (F.p + 1)]; omega)⟩
      rw [hz, if_pos (by omega)]
      have h1 : ((F.eb - 1 : Nat) : Int) - F.eb = -1 := by omega
      rw [h1]
      unfold shl
      rw [ofInt_shiftLeft, hmask _ (by omega), ofInt_and_mask _ (by omega), ← ofInt_sub']
      have h2 : (2 : Int) ^ (F.p + 1) * 2 ^ ((-1 : Int) % F.w).toNat % 2 ^ F.p = ((0 : Nat) : Int) := by
        apply Int.emod_eq_zero_of_dvd
        exact Dvd.dvd.mul_right (pow_dvd_pow 2 (by omega)) _
      rw [h2, show (e : Int) - -1 = ((e + 1 : Nat) : Int) by push_cast; ring]
      exact hzs (e + 1) 0 hlast (by positivity)

theorem expField_pack {t : Nat} (h : F.OK t) {s e m : Nat} (hs : s ≤ 1) (he : e < 2 ^ F.eb) (hm : m < 2 ^ F.p) : F.expField (F.pack s e m) = e := by
  have hw := h.hw
  have hP : (0 : Int) < 2 ^ F.p := by positivity
  have he' : (e : Int) < 2 ^ F.eb := by exact_mod_cast he
  have hm' : (m : Int) < 2 ^ F.p := by exact_mod_cast hm
  have hmask : BitVec.ofNat F.w (2 ^ F.eb - 1) = BitVec.ofInt F.w (2 ^ F.eb - 1) := by
    rw [← ofInt_natCast]
    congr 1
    rw [Nat.cast_sub Nat.one_le_two_pow]; norm_cast
  have hpre : (F.pack s e m).sshiftRight F.p = BitVec.ofInt F.w (e + -(s : Int) * 2 ^ F.eb) := by
    rw [sshiftRight_eq_ofInt, pack_toInt h hs he hm, Int.add_mul_ediv_right _ _ (ne_of_gt hP),
      Int.ediv_eq_zero_of_lt (by omega) hm', zero_add]
  unfold expField
  rw [hpre, hmask, ofInt_and_mask _ (by omega), Int.add_mul_emod_self_right, Int.emod_eq_of_lt (by omega) he']
  have : (2 : Int) ^ F.eb ≤ 2 ^ F.w := pow_le_pow_right₀ (by decide) (by omega)
  have := toNat_ofInt_of (w := F.w) (a := e) (by omega) (by omega)
  omega

theorem bitTruncateFloat_pack {t : Nat} (h : F.OK t) {s e m : Nat} (hs : s ≤ 1)
    (he : e < 2 ^ F.eb) (hm : m < 2 ^ F.p) (err : ℚ) {k : Nat}
    (hmsb : (F.intErr e err).msb = false) (hk : BitLen (F.intErr e err).toNat k)
    (hkw : k + 2 ≤ F.w) :
    (roundInt (2 ^ k) (2 ^ F.p + m) = 0 ∧
      F.bitTruncateFloat (F.pack s e m) err = F.pack s 0 0) ∨
    (∃ m' : Nat, m' < 2 ^ F.p ∧ roundInt (2 ^ k) (2 ^ F.p + m) = 2 ^ F.p + m' ∧
      F.bitTruncateFloat (F.pack s e m) err = F.pack s e m') ∨
    (roundInt (2 ^ k) (2 ^ F.p + m) = 2 ^ (F.p + 1) ∧ (e + 1 < 2 ^ F.eb →
      F.bitTruncateFloat (F.pack s e m) err = F.pack s (e + 1) 0)) := by
  unfold bitTruncateFloat
  rw [expField_pack h hs he hm]
  exact truncWith_pack h hs he hm _ hmsb hk hkw

end Fmt
end Verif.Trunc
