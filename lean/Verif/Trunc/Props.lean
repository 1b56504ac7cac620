import Verif.Trunc.Lemmas

/-! Property theorems C12: truncation of integers. -/
namespace Verif.Trunc

/-- C12, 32 bit: for `0 ≤ err < 2^30` the result is the multiple of the granularity (the smallest
power of two greater than `err`) nearest to `val`, the even one in a tie, whenever that multiple is
an `int32`. -/
theorem C12_int_rounds (val err : BitVec 32) (h0 : 0 ≤ err.toInt) (h1 : err.toInt < 2 ^ 30)
    (g r : Int) (hg : Granularity err.toInt g) (hr : RoundsTo g val.toInt r)
    (hlo : -2 ^ 31 ≤ r) (hhi : r < 2 ^ 31) :
    (bitTruncate32 val err).toInt = r := by
  unfold bitTruncate32
  rw [bitTruncate_rounds (by decide) shifts32_eq (by decide) h0 h1 hg hr,
    BitVec.toInt_ofInt_eq_self (by decide) hlo hhi]

example : (bitTruncate32 (-13) 5).toInt = -16 := by decide
example : (bitTruncate32 12 5).toInt = 16 ∧ (bitTruncate32 4 5).toInt = 0 := by decide

/-- C12, 64 bit, for `0 ≤ err < 2^62`. -/
theorem C12_long_rounds (val err : BitVec 64) (h0 : 0 ≤ err.toInt) (h1 : err.toInt < 2 ^ 62)
    (g r : Int) (hg : Granularity err.toInt g) (hr : RoundsTo g val.toInt r)
    (hlo : -2 ^ 63 ≤ r) (hhi : r < 2 ^ 63) :
    (bitTruncate64 val err).toInt = r := by
  unfold bitTruncate64
  rw [bitTruncate_rounds (by decide) shifts64_eq (by decide) h0 h1 hg hr,
    BitVec.toInt_ofInt_eq_self (by decide) hlo hhi]

example : (bitTruncate64 (3 * 2 ^ 40) (2 ^ 41)).toInt = 2 ^ 42 := by decide

/-- The two hypotheses above can always be met: a granularity and a rounded value exist, and the
rounded value is unique. -/
theorem C12_spec_total (err val : Int) (h0 : 0 ≤ err) :
    ∃ g r, Granularity err g ∧ RoundsTo g val r ∧ ∀ r', RoundsTo g val r' → r' = r := by
  obtain ⟨g, hg⟩ := granularity_exists h0
  have hpos : 0 < g := by obtain ⟨⟨k, rfl⟩, _⟩ := hg; positivity
  exact ⟨g, _, hg, roundInt_spec hpos val,
    fun r' h' => roundsTo_unique hpos h' (roundInt_spec hpos val)⟩

/-- C12, 32 bit: the change is at most `err`, and `err = 0` changes nothing. -/
theorem C12_int_error (val err : BitVec 32) (h0 : 0 ≤ err.toInt) (h1 : err.toInt < 2 ^ 30)
    (hlo : -2 ^ 31 ≤ val.toInt - err.toInt) (hhi : val.toInt + err.toInt < 2 ^ 31) :
    |(bitTruncate32 val err).toInt - val.toInt| ≤ err.toInt := by
  obtain ⟨g, r, hg, hr, _⟩ := C12_spec_total err.toInt val.toInt h0
  have he := roundsTo_error h0 hg hr
  have := abs_le.1 he
  rwa [C12_int_rounds val err h0 h1 g r hg hr (by omega) (by omega)]

example : |(bitTruncate32 (-1000003) 511).toInt - (-1000003)| = 67 := by decide

/-- C12, 64 bit: the change is at most `err`. -/
theorem C12_long_error (val err : BitVec 64) (h0 : 0 ≤ err.toInt) (h1 : err.toInt < 2 ^ 62)
    (hlo : -2 ^ 63 ≤ val.toInt - err.toInt) (hhi : val.toInt + err.toInt < 2 ^ 63) :
    |(bitTruncate64 val err).toInt - val.toInt| ≤ err.toInt := by
  obtain ⟨g, r, hg, hr, _⟩ := C12_spec_total err.toInt val.toInt h0
  have he := roundsTo_error h0 hg hr
  have := abs_le.1 he
  rwa [C12_long_rounds val err h0 h1 g r hg hr (by omega) (by omega)]

example : |(bitTruncate64 (-1000003) 511).toInt - (-1000003)| = 67 := by decide

/-- C12: with `err = 0` the value is returned, for every 32 and 64 bit value. -/
theorem C12_zero (v32 : BitVec 32) (v64 : BitVec 64) :
    bitTruncate32 v32 0 = v32 ∧ bitTruncate64 v64 0 = v64 := by
  constructor
  · apply BitVec.eq_of_toInt_eq
    refine C12_int_rounds v32 0 (by decide) (by decide) 1 _ ⟨⟨0, rfl⟩, by decide, ?_⟩
      (roundsTo_self (by decide) (one_dvd _)) (BitVec.le_toInt v32) BitVec.toInt_lt
    intro k _; exact one_le_pow₀ (by decide)
  · apply BitVec.eq_of_toInt_eq
    refine C12_long_rounds v64 0 (by decide) (by decide) 1 _ ⟨⟨0, rfl⟩, by decide, ?_⟩
      (roundsTo_self (by decide) (one_dvd _)) (BitVec.le_toInt v64) BitVec.toInt_lt
    intro k _; exact one_le_pow₀ (by decide)

/-- C12, 32 bit: truncating again with the same `err` changes nothing (whether or not the first
truncation left the integer range). -/
theorem C12_int_idempotent (val err : BitVec 32) (h0 : 0 ≤ err.toInt) (h1 : err.toInt < 2 ^ 30) :
    bitTruncate32 (bitTruncate32 val err) err = bitTruncate32 val err := by
  obtain ⟨g, r, hg, hr, _⟩ := C12_spec_total err.toInt val.toInt h0
  have e := bitTruncate_rounds (by decide) shifts32_eq (by decide) h0 h1 hg hr
  have hgl : ∃ k : Nat, g = 2 ^ k ∧ k ≤ 30 := granularity_exp_le h1 hg
  unfold bitTruncate32
  obtain ⟨k, rfl, hk⟩ := hgl
  have hd : (2 : Int) ^ k ∣ (bitTruncate shifts32 val err).toInt := by
    rw [e]; exact dvd_toInt_ofInt hr.1 (by omega)
  have e2 := bitTruncate_rounds (val := bitTruncate shifts32 val err) (by decide) shifts32_eq
    (by decide) h0 h1 hg (roundsTo_self (by positivity) hd)
  rw [e2, BitVec.ofInt_toInt]

/-- C12, 64 bit: truncating again with the same `err` changes nothing. -/
theorem C12_long_idempotent (val err : BitVec 64) (h0 : 0 ≤ err.toInt) (h1 : err.toInt < 2 ^ 62) :
    bitTruncate64 (bitTruncate64 val err) err = bitTruncate64 val err := by
  obtain ⟨g, r, hg, hr, _⟩ := C12_spec_total err.toInt val.toInt h0
  have e := bitTruncate_rounds (by decide) shifts64_eq (by decide) h0 h1 hg hr
  have hgl : ∃ k : Nat, g = 2 ^ k ∧ k ≤ 62 := granularity_exp_le h1 hg
  unfold bitTruncate64
  obtain ⟨k, rfl, hk⟩ := hgl
  have hd : (2 : Int) ^ k ∣ (bitTruncate shifts64 val err).toInt := by
    rw [e]; exact dvd_toInt_ofInt hr.1 (by omega)
  have e2 := bitTruncate_rounds (val := bitTruncate shifts64 val err) (by decide) shifts64_eq
    (by decide) h0 h1 hg (roundsTo_self (by positivity) hd)
  rw [e2, BitVec.ofInt_toInt]

example : bitTruncate32 (bitTruncate32 12345 100) 100 = 12288 + 0 ∧
    bitTruncate32 12345 100 = 12288 := by decide

/-- C12 at the boundary: the header documents undefined results only for `err > 2^30` (`2^62`), but
for `err = 2^30` (`2^62`) itself the granularity does not fit the integer type, and `0`, a multiple of
everything, is turned into the most negative integer (with wrap-around arithmetic; in C the
overflow is undefined). -/
theorem C12_boundary_violated :
    RoundsTo (2 ^ 31) 0 0 ∧ Granularity (2 ^ 30) (2 ^ 31) ∧
    (bitTruncate32 0 0x40000000#32).toInt = -2 ^ 31 ∧
    (bitTruncate64 0 0x4000000000000000#64).toInt = -2 ^ 63 := by
  refine ⟨roundsTo_self (by norm_num) (dvd_zero _), ⟨⟨31, rfl⟩, by norm_num, ?_⟩, by decide, by decide⟩
  intro k hk
  have : 30 < k := (pow_lt_pow_iff_right₀ (by decide)).1 hk
  exact pow_le_pow_right₀ (by decide) this

end Verif.Trunc
