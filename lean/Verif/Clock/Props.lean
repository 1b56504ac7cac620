import Verif.Clock.Lemmas
import Mathlib.Data.List.Forall2

/-!
# C75: dates, times and their strings
-/
namespace Verif.Clock

open Verif.Stellar (rint)

theorem rint_half (x : ℚ) : |(rint x : ℚ) - x| ≤ 1 / 2 := by
  unfold rint
  have h1 := Int.floor_le x
  have h2 := Int.lt_floor_add_one x
  rw [abs_le]
  split_ifs <;> push_cast <;> constructor <;> linarith

/-- **C75** (calendar). UNIX time counts seconds of UTC from the beginning of 1970: the next day is 86400 seconds later, a time of day as many
seconds as it says after midnight, and a time zone east of Greenwich is ahead by its offset. A time without a zone is in
UTC. These determine UNIX time for all dates. -/
theorem C75_calendar (dt : DT) (h : Valid dt) :
    datetimeToUnix ⟨1970, 1, 1, 0, 0, 0, 0, none⟩ = 0 ∧
    datetimeToUnix { dt with
      year := (nextDay dt.year dt.month dt.day).1
      month := (nextDay dt.year dt.month dt.day).2.1
      day := (nextDay dt.year dt.month dt.day).2.2 } = datetimeToUnix dt + 86400 ∧
    datetimeToUnix dt = datetimeToUnix { dt with hour := 0, minute := 0, second := 0, micro := 0 } +
      3600 * dt.hour + 60 * dt.minute + dt.second + dt.micro / 1000000 ∧
    (∀ off, dt.tz = some off → datetimeToUnix dt = datetimeToUnix { dt with tz := none } - off / 1000000) := by
  refine ⟨?_, ?_, ?_, ?_⟩
  · rw [unix_eq]
    have : DT.wall ⟨1970, 1, 1, 0, 0, 0, 0, none⟩ - (DT.tz ⟨1970, 1, 1, 0, 0, 0, 0, none⟩).getD 0 - W0 = 0 := by decide +kernel
    rw [this]
    norm_num
  · rw [unix_eq, unix_eq]
    have hn := ymd2ord_nextDay _ _ _ h.date
    simp only [DT.wall]
    rw [hn]
    push_cast
    ring
  · rw [unix_eq, unix_eq]
    simp only [DT.wall]
    push_cast
    ring
  · intro off ho
    rw [unix_eq, unix_eq]
    simp only [DT.wall, ho]
    push_cast
    simp only [Option.getD_some, Option.getD_none]
    push_cast
    ring

example : Valid ⟨2024, 2, 29, 23, 59, 58, 5, some 3600000000⟩ ∧ nextDay 2024 2 29 = (2024, 3, 1) ∧ nextDay 2100 2 28 = (2100, 3, 1) := by decide

/-- **C75** (without a zone). `naive_datetime_to_utc` gives a date and time without a zone the zone UTC, and changes nothing else. -/
theorem C75_naive (dt : DT) :
    (naiveToUtc dt).tz = some (dt.tz.getD 0) ∧ { naiveToUtc dt with tz := dt.tz } = dt := by
  unfold naiveToUtc
  cases h : dt.tz with
  | none => rw [if_pos rfl]; exact ⟨rfl, by rw [← h]⟩
  | some z => rw [if_neg (by simp)]; exact ⟨h, by rw [← h]⟩

example : naiveToUtc ⟨2024, 2, 29, 1, 2, 3, 4, none⟩ = ⟨2024, 2, 29, 1, 2, 3, 4, some 0⟩ := by decide

/-- **C75** (from UNIX time). From the year 1 to the year 9999, a UNIX time gives a date and time in UTC, which exists and is that of the nearest
microsecond; other UNIX times are refused. -/
theorem C75_from_unix (t : ℚ) :
    (-62135596800 ≤ t → t ≤ 253402300799.999999 → ∃ dt, unixToDatetime t = .ok dt) ∧
    (t < -62135596800.000001 ∨ 253402300800 ≤ t → unixToDatetime t = .error .valueError) ∧
    (∀ dt, unixToDatetime t = .ok dt → Valid dt ∧ dt.tz = some 0 ∧ |datetimeToUnix dt - t| ≤ 1 / 2000000) := by
  have hr := rint_half (t * 1000000)
  rw [abs_le] at hr
  have hok : (-62135596800000000 ≤ rint (t * 1000000) ∧ rint (t * 1000000) < 253402300800000000) →
      ∃ dt, unixToDatetime t = .ok dt ∧ Valid dt ∧ dt.tz = some 0 ∧ dt.wall = rint (t * 1000000) + W0 := by
    intro h
    obtain ⟨dt, h1, h2, h3, h4⟩ := fromtimestamp_ok t h
    refine ⟨dt, ?_, h2, h3, h4⟩
    unfold unixToDatetime
    rw [h1]
    simp only [naiveToUtc, h3]
    rfl
  refine ⟨fun h1 h2 => ?_, fun h => ?_, fun dt hdt => ?_⟩
  · have l1 : (-62135596800000001 : ℚ) < rint (t * 1000000) := by linarith [hr.1]
    have l2 : (rint (t * 1000000) : ℚ) < 253402300800000000 := by
      norm_num at h2
      linarith [hr.2]
    have l1' : -62135596800000001 < rint (t * 1000000) := by exact_mod_cast l1
    have l2' : rint (t * 1000000) < 253402300800000000 := by exact_mod_cast l2
    obtain ⟨dt, e, -⟩ := hok ⟨by omega, l2'⟩
    exact ⟨dt, e⟩
  · have : ¬ (-62135596800000000 ≤ rint (t * 1000000) ∧ rint (t * 1000000) < 253402300800000000) := by
      rintro ⟨g1, g2⟩
      have g1' : (-62135596800000000 : ℚ) ≤ rint (t * 1000000) := by exact_mod_cast g1
      have g2' : rint (t * 1000000) ≤ 253402300799999999 := by omega
      have g2'' : (rint (t * 1000000) : ℚ) ≤ 253402300799999999 := by exact_mod_cast g2'
      rcases h with h | h
      · norm_num at h
        linarith [hr.2]
      · linarith [hr.1]
    unfold unixToDatetime
    rw [fromtimestamp_error t this]
  · by_cases hc : -62135596800000000 ≤ rint (t * 1000000) ∧ rint (t * 1000000) < 253402300800000000
    · obtain ⟨dt', e, v, z, w⟩ := hok hc
      rw [e] at hdt
      obtain rfl := Except.ok.inj hdt
      refine ⟨v, z, ?_⟩
      rw [unix_eq, z, w]
      have : ((rint (t * 1000000) + W0 - (some 0 : Option Int).getD 0 - W0 : Int) : ℚ) / 1000000 - t =
          ((rint (t * 1000000) : ℚ) - t * 1000000) / 1000000 := by
        simp only [Option.getD_some]
        push_cast
        field_simp
        ring
      rw [this, abs_le]
      constructor
      · linarith [hr.1]
      · linarith [hr.2]
    · unfold unixToDatetime at hdt
      rw [fromtimestamp_error t hc] at hdt
      cases hdt

example : unixToDatetime 1398097992 = .ok ⟨2014, 4, 21, 16, 33, 12, 0, some 0⟩ := by decide +kernel

/-- **C75** (there and back). A date and time in UTC, with or without a zone, is got back from its UNIX time, with the zone. One in another
zone is given in UTC, and is the same instant, if it is within the years of the calendar. -/
theorem C75_round_trip (dt : DT) (h : Valid dt) :
    (Utc dt → unixToDatetime (datetimeToUnix dt) = .ok { dt with tz := some 0 }) ∧
    (-62135596800 ≤ datetimeToUnix dt → datetimeToUnix dt < 253402300800 →
      ∃ dt', unixToDatetime (datetimeToUnix dt) = .ok dt' ∧ Valid dt' ∧ dt'.tz = some 0 ∧ datetimeToUnix dt' = datetimeToUnix dt) := by
  have hu : rint (datetimeToUnix dt * 1000000) = dt.wall - dt.tz.getD 0 - W0 := by
    rw [unix_eq]
    have : ((dt.wall - dt.tz.getD 0 - W0 : Int) : ℚ) / 1000000 * 1000000 = ((dt.wall - dt.tz.getD 0 - W0 : Int) : ℚ) := by
      field_simp
    rw [this, rint_int]
  have key : (-62135596800000000 ≤ dt.wall - dt.tz.getD 0 - W0 ∧ dt.wall - dt.tz.getD 0 - W0 < 253402300800000000) →
      ∃ dt', unixToDatetime (datetimeToUnix dt) = .ok dt' ∧ Valid dt' ∧ dt'.tz = some 0 ∧ dt'.wall = dt.wall - dt.tz.getD 0 := by
    intro hr
    rw [← hu] at hr
    obtain ⟨dt', h1, h2, h3, h4⟩ := fromtimestamp_ok _ hr
    refine ⟨dt', ?_, h2, h3, ?_⟩
    · unfold unixToDatetime
      rw [h1]
      simp only [naiveToUtc, h3]
      rfl
    · rw [h4, hu]
      omega
  constructor
  · intro hz
    have hz0 : dt.tz.getD 0 = 0 := by rcases hz with hz | hz <;> rw [hz] <;> rfl
    have hw := wall_range dt h
    obtain ⟨dt', e, v, z, w⟩ := key (by rw [hz0]; unfold W0; omega)
    rw [e]
    congr 1
    refine wall_inj dt' { dt with tz := some 0 } v h z ?_
    rw [w, hz0, Int.sub_zero]
    rfl
  · intro h1 h2
    rw [unix_eq] at h1 h2
    have h1' : (-62135596800000000 : ℚ) ≤ ((dt.wall - dt.tz.getD 0 - W0 : Int) : ℚ) := by linarith
    have h2' : ((dt.wall - dt.tz.getD 0 - W0 : Int) : ℚ) < 253402300800000000 := by linarith
    obtain ⟨dt', e, v, z, w⟩ := key ⟨by exact_mod_cast h1', by exact_mod_cast h2'⟩
    refine ⟨dt', e, v, z, ?_⟩
    rw [unix_eq, unix_eq, z, w]
    simp

example : Utc ⟨2014, 4, 21, 16, 33, 12, 5, none⟩ := .inl rfl

/-- **C75** (strings). The string of a date and time from the year 1000 on is read back as the same date and time without the fraction of the second, whatever is
put behind it. -/
theorem C75_strings_partial (dt : DT) (h : Valid dt) (hy : 1000 ≤ dt.year) (rest : Str) :
    timestrToDatetime (datetimeToTimestr dt ++ rest) = .ok { dt with micro := 0, tz := none } := by
  unfold timestrToDatetime
  rw [timestr_stem dt hy, List.append_assoc, List.take_append_of_le_length (by rw [stem_length]), List.take_of_length_le (by rw [stem_length])]
  exact strptime_stem dt h

example : datetimeToTimestr ⟨2014, 4, 21, 16, 33, 12, 5, none⟩ = "20140421T163312Z".toList := by decide

/-- **C75** (order of strings). The strings are in the order of the times, if these are in UTC: one is less than another if and only if its time is
in an earlier second. -/
theorem C75_sorted_partial (a b : DT) (ha : Valid a) (hb : Valid b) (hya : 1000 ≤ a.year) (hyb : 1000 ≤ b.year) (hza : Utc a) (hzb : Utc b) :
    datetimeToTimestr a < datetimeToTimestr b ↔ ⌊datetimeToUnix a⌋ < ⌊datetimeToUnix b⌋ := by
  have hf : ∀ dt : DT, Utc dt → ⌊datetimeToUnix dt⌋ = dt.wall / 1000000 - 62135683200 := by
    intro dt hz
    have hz0 : dt.tz.getD 0 = 0 := by rcases hz with hz | hz <;> rw [hz] <;> rfl
    rw [unix_eq, hz0, Int.sub_zero, Int.floor_eq_iff]
    have e1 := Int.emod_add_mul_ediv dt.wall 1000000
    have e2 := Int.emod_nonneg dt.wall (show (1000000 : Int) ≠ 0 by decide)
    have e3 := Int.emod_lt_of_pos dt.wall (show (0 : Int) < 1000000 by decide)
    generalize dt.wall / 1000000 = q at *
    generalize dt.wall % 1000000 = r at *
    have e1' : (dt.wall : ℚ) = r + 1000000 * q := by exact_mod_cast e1.symm
    have e2' : (0 : ℚ) ≤ r := by exact_mod_cast e2
    have e3' : (r : ℚ) < 1000000 := by exact_mod_cast e3
    unfold W0
    push_cast
    rw [e1']
    constructor
    · linarith
    · linarith
  rw [timestr_lt a b ha hb hya hyb, hf a hza, hf b hzb]
  omega

/-- **C75** (any kind of time). A number, a date and time, and a string are all turned into UNIX time, each by itself and in lists of one kind; the
string of a time in UTC from the year 1000 on into that of its second. -/
theorem C75_ensure_partial :
    (∀ x, ensureUnix (.one (.num x)) = .ok (.one x)) ∧
    (∀ d, ensureUnix (.one (.dt d)) = .ok (.one (datetimeToUnix d))) ∧
    (∀ d rest, Valid d → 1000 ≤ d.year → Utc d → ensureUnix (.one (.str (datetimeToTimestr d ++ rest))) = .ok (.one (datetimeToUnix { d with micro := 0 }))) ∧
    (∀ l : List ℚ, ensureUnix (.list (l.map .num)) = .ok (.arr l)) ∧
    (∀ l : List DT, ensureUnix (.list (l.map .dt)) = .ok (.arr (l.map datetimeToUnix))) ∧
    (∀ l : List DT, (∀ d ∈ l, Valid d ∧ 1000 ≤ d.year ∧ Utc d) → ensureUnix (.list (l.map fun d => .str (datetimeToTimestr d))) =
      .ok (.arr (l.map fun d => datetimeToUnix { d with micro := 0 }))) ∧
    (∀ l, ensureUnix (.list l) = .ok (.arr []) ↔ l = []) := by
  have hs : ∀ d rest, Valid d → 1000 ≤ d.year → Utc d → unixOfStr (.str (datetimeToTimestr d ++ rest)) = .ok (datetimeToUnix { d with micro := 0 }) := by
    intro d rest hv hy hz
    have hz0 : d.tz.getD 0 = 0 := by rcases hz with hz | hz <;> rw [hz] <;> rfl
    have he : datetimeToUnix { d with micro := 0, tz := none } = datetimeToUnix { d with micro := 0 } := by
      rw [unix_eq, unix_eq]
      simp only [DT.wall, hz0, Option.getD_none]
    simp only [unixOfStr, C75_strings_partial d hv hy rest, he]
  refine ⟨fun x => rfl, fun d => rfl, fun d rest hv hy hz => ?_, fun l => ?_, fun l => ?_, fun l hl => ?_, fun l => ?_⟩
  · have he : ∀ s, ensureUnix (.one (.str s)) = match unixOfStr (.str s) with
        | .error e => .error e
        | .ok y => .ok (.one y) := by
      intro s
      unfold ensureUnix ensureBody
      simp only [eachOf]
      cases unixOfStr (.str s) <;> rfl
    rw [he, hs d rest hv hy hz]
  · unfold ensureUnix
    cases l with
    | nil => rfl
    | cons x l =>
      simp only [List.map_cons, reduceCtorEq, if_false, ensureBody]
      have := eachOf_map unixOfNum Time.num id (x :: l) (fun _ _ => rfl)
      rw [List.map_cons] at this
      rw [this]
      simp
  · unfold ensureUnix
    cases l with
    | nil => rfl
    | cons x l =>
      simp only [List.map_cons, reduceCtorEq, if_false, ensureBody]
      have := eachOf_map unixOfDt Time.dt datetimeToUnix (x :: l) (fun _ _ => rfl)
      rw [List.map_cons] at this
      rw [this]
      simp
  · unfold ensureUnix
    cases l with
    | nil => rfl
    | cons x l =>
      have := eachOf_map unixOfStr (fun d => Time.str (datetimeToTimestr d)) (fun d => datetimeToUnix { d with micro := 0 }) (x :: l) (by
        intro d hd
        have h1 := hs d [] (hl d hd).1 (hl d hd).2.1 (hl d hd).2.2
        rw [List.append_nil] at h1
        exact h1)
      rw [List.map_cons] at this
      simp only [List.map_cons, reduceCtorEq, if_false, ensureBody]
      rw [this]
      simp
  · unfold ensureUnix
    cases l with
    | nil => simp
    | cons x l =>
      simp only [reduceCtorEq, if_false, iff_false]
      have hne : ∀ f : Time → Except PyErr ℚ, eachOf f (x :: l) ≠ .ok [] := by
        intro f h
        rw [eachOf] at h
        split at h
        · cases h
        · split at h <;> simp at h
      intro h
      cases hb : ensureBody (x :: l) with
      | error e => rw [hb] at h; simp at h
      | ok r =>
        rw [hb] at h
        simp only [Except.ok.injEq, Res.arr.injEq] at h
        subst h
        unfold ensureBody at hb
        split at hb
        · exact hne _ hb
        · exact hne _ hb
        · exact hne _ hb

/-- **C75** (time of day). The time of day is at least zero and less than 86400 seconds, and that many seconds before is, to half a microsecond, a
whole number of days from the epoch. -/
theorem C75_time_of_day (t : Time) (x r : ℚ) (hx : ensureUnix (.one t) = .ok (.one x)) (h : timeOfDay (.one t) = .ok (.one r)) :
    0 ≤ r ∧ r < 86400 ∧ ∃ k : Int, |x - (86400 * k + r)| ≤ 1 / 2000000 := by
  have h1 : timeOfDay1 t = .ok r := by
    unfold timeOfDay vectorize at h
    simp only at h
    cases hb : timeOfDay1 t with
    | error e => rw [hb] at h; simp at h
    | ok y => rw [hb] at h; simp only [Except.ok.injEq, Res.one.injEq] at h; rw [h]
  unfold timeOfDay1 at h1
  rw [hx] at h1
  simp only at h1
  by_cases hc : -62135596800000000 ≤ rint (x * 1000000) ∧ rint (x * 1000000) < 253402300800000000
  · obtain ⟨dt, e, v, z, w⟩ := fromtimestamp_ok x hc
    rw [e] at h1
    simp only [Except.ok.injEq] at h1
    have hd : dt.sub { dt with hour := 0, minute := 0, second := 0, micro := 0 } =
        (dt.hour * 3600 + dt.minute * 60 + dt.second) * 1000000 + dt.micro := by
      simp only [DT.sub, DT.wall]
      push_cast
      ring
    rw [hd] at h1
    obtain ⟨-, -, -, v1, v2, v3, v4⟩ := v
    have hn : (dt.hour * 3600 + dt.minute * 60 + dt.second) * 1000000 + dt.micro < 86400000000 := by omega
    have hn' : (((dt.hour * 3600 + dt.minute * 60 + dt.second) * 1000000 + dt.micro : Nat) : ℚ) < 86400000000 := by exact_mod_cast hn
    have hn0 : (0 : ℚ) ≤ (((dt.hour * 3600 + dt.minute * 60 + dt.second) * 1000000 + dt.micro : Nat) : ℚ) := by exact_mod_cast Nat.zero_le _
    push_cast at hn' hn0 h1
    refine ⟨?_, ?_, (ymd2ord dt.year dt.month dt.day : Int) - 719163, ?_⟩
    · rw [← h1]
      linarith
    · rw [← h1]
      linarith
    · have hr := rint_half (x * 1000000)
      rw [abs_le] at hr
      have hw : ((ymd2ord dt.year dt.month dt.day : ℚ) * 86400 + dt.hour * 3600 + dt.minute * 60 + dt.second) * 1000000 + dt.micro =
          rint (x * 1000000) + 62135683200000000 := by
        have : ((dt.wall : Int) : ℚ) = ((rint (x * 1000000) + W0 : Int) : ℚ) := by rw [w]
        unfold DT.wall W0 at this
        push_cast at this
        exact this
      rw [← h1, abs_le]
      push_cast
      constructor
      · linarith [hr.1, hr.2]
      · linarith [hr.1, hr.2]
  · rw [fromtimestamp_error x hc] at h1
    cases h1

example : timeOfDay (.one (.str "20140421T163312Z".toList)) = .ok (.one 59592) := by decide +kernel

/-- **C75** (reading). Whatever string is read, the result is a date and a time of day that exist, without a time zone and fractions of a second. -/
theorem C75_reading (s : Str) (dt : DT) (h : timestrToDatetime s = .ok dt) : Valid dt ∧ dt.tz = none ∧ dt.micro = 0 := by
  unfold timestrToDatetime strptime at h
  split at h
  · cases h
  · split_ifs at h
    unfold mk at h
    split_ifs at h with hc
    simp only [Except.ok.injEq] at h
    subst h
    obtain ⟨h1, h2, h3, h4, h5, h6, h7⟩ := hc
    rw [daysInMonth_eq _ _ h2.1 h2.2] at h3
    exact ⟨⟨h1, h2, h3, Nat.lt_succ_of_le h4, Nat.lt_succ_of_le h5, Nat.lt_succ_of_le h6, Nat.lt_succ_of_le h7⟩, rfl, rfl⟩

example : timestrToDatetime "20240229T000000Z".toList = .ok ⟨2024, 2, 29, 0, 0, 0, 0, none⟩ ∧
    timestrToDatetime "20230229T000000Z".toList = .error .valueError := by decide +kernel

/-- **C75** (other things). What is neither a number, nor a date, nor a string is refused, also in a list. -/
theorem C75_other (l : List Time) :
    ensureUnix (.one .other) = .error .typeError ∧ ensureUnix (.list (.other :: l)) = .error .typeError ∧
    (∀ r, ensureUnix (.list l) = .ok r → Time.other ∉ l) := by
  refine ⟨rfl, rfl, fun r h hm => ?_⟩
  have hx : ∀ f : Time → Except PyErr ℚ, (∃ e, f .other = .error e) → ∀ l : List Time, Time.other ∈ l → ∃ e, eachOf f l = .error e := by
    rintro f ⟨e, he⟩ l
    induction l with
    | nil => intro h; cases h
    | cons a l ih =>
      intro h
      unfold eachOf
      cases ha : f a with
      | error e' => exact ⟨e', rfl⟩
      | ok y =>
        rcases List.mem_cons.mp h with h | h
        · subst h; rw [he] at ha; cases ha
        · obtain ⟨e', h'⟩ := ih h
          exact ⟨e', by simp only [h']⟩
  have hb : ∃ e, ensureBody l = .error e := by
    unfold ensureBody
    split
    · exact hx _ ⟨_, rfl⟩ _ hm
    · exact hx _ ⟨_, rfl⟩ _ hm
    · exact hx _ ⟨_, rfl⟩ _ hm
  obtain ⟨e, hb⟩ := hb
  unfold ensureUnix at h
  by_cases hl : l = []
  · rw [hl] at hm; cases hm
  · simp only [hl, if_false, hb] at h
    cases h

example : ensureUnix (.list [.num 3, .num 4]) = .ok (.arr [3, 4]) := by decide +kernel

/-- **C75** (times of day). For a list that is not empty, the result is an array with the time of day of every element; it fails if one of
them does. A time which can be converted to UNIX time has a time of day, if its year is from 1 to 9999. -/
theorem C75_times_of_day_partial (l : List Time) (hl : l ≠ []) (r : List ℚ) :
    (timeOfDay (.list l) = .ok (.arr r) ↔ List.Forall₂ (fun t x => timeOfDay (.one t) = .ok (.one x)) l r) ∧
    ∀ t x, ensureUnix (.one t) = .ok (.one x) → -62135596800 ≤ x → x ≤ 253402300799.999999 → ∃ y, timeOfDay (.one t) = .ok (.one y) := by
  constructor
  · have h1 : ∀ t x, timeOfDay (.one t) = .ok (.one x) ↔ timeOfDay1 t = .ok x := by
      intro t x
      unfold timeOfDay vectorize
      simp only
      cases timeOfDay1 t <;> simp
    have h2 : ∀ l r, eachOf timeOfDay1 l = .ok r ↔ List.Forall₂ (fun t x => timeOfDay (.one t) = .ok (.one x)) l r := by
      intro l
      induction l with
      | nil => intro r; cases r <;> simp [eachOf]
      | cons a l ih =>
        intro r
        unfold eachOf
        cases ha : timeOfDay1 a with
        | error e => cases r <;> simp [h1, ha]
        | ok y =>
          cases hb : eachOf timeOfDay1 l with
          | error e =>
            cases r with
            | nil => simp
            | cons z r => simp only [List.forall₂_cons, h1 a, ha, ← ih, hb]; simp
          | ok r' =>
            cases r with
            | nil => simp
            | cons z r => simp only [List.forall₂_cons, h1 a, ha, ← ih, hb]; simp
    rw [← h2]
    unfold timeOfDay vectorize
    simp only [hl, false_and, if_false]
    cases eachOf timeOfDay1 l <;> simp
  · intro t x hx h1 h2
    obtain ⟨dt, hd⟩ := (C75_from_unix x).1 h1 h2
    unfold unixToDatetime at hd
    unfold timeOfDay vectorize timeOfDay1
    simp only [hx]
    cases hf : fromtimestamp x with
    | error e => rw [hf] at hd; cases hd
    | ok d => exact ⟨_, rfl⟩

example : timeOfDay (.list [.num 5, .dt ⟨2014, 4, 21, 16, 33, 12, 0, none⟩]) = .ok (.arr [5, 59592]) := by decide +kernel

/-! ### Where the property fails -/

/-- C75: a time in a zone other than UTC is written with its own hour and a `Z`; read back, it is another instant. -/
theorem C75_zone_violated :
    let dt : DT := ⟨2014, 4, 21, 16, 33, 12, 0, some (-25200000000)⟩
    Valid dt ∧ ensureUnix (.one (.str (datetimeToTimestr dt))) = .ok (.one 1398097992) ∧ datetimeToUnix dt = 1398123192 := by
  decide +kernel

/-- C75: before the year 1000 the strings are shorter, and cannot be read. -/
theorem C75_year_violated :
    let dt : DT := ⟨999, 4, 21, 16, 33, 12, 0, none⟩
    Valid dt ∧ datetimeToTimestr dt = "9990421T163312Z".toList ∧ timestrToDatetime (datetimeToTimestr dt) = .error .valueError := by
  decide +kernel

/-- C75: a zone in a string is ignored. -/
theorem C75_offset_violated : ensureUnix (.one (.str "20140421T163312+0200".toList)) = ensureUnix (.one (.str "20140421T163312Z".toList)) := by
  decide +kernel

/-- C75: a string in which a digit is missing is taken for some other time instead of being refused. -/
theorem C75_digits_violated : timestrToDatetime "2014111T163312".toList = .ok ⟨2014, 11, 1, 16, 33, 12, 0, none⟩ ∧
    timestrToDatetime "20140421T16331".toList = .ok ⟨2014, 4, 21, 16, 33, 1, 0, none⟩ := by decide +kernel

/-- C75: of a list of times of more than one kind, all of which are understood by themselves, none is converted. -/
theorem C75_mixed_violated : ensureUnix (.list [.dt epoch, .num 0]) = .error .attributeError ∧ ensureUnix (.one (.num 0)) = .ok (.one 0) ∧
    ensureUnix (.one (.dt epoch)) = .ok (.one 0) := by decide +kernel

/-- C75: the time of day of no times is an error; other functions give an empty array. -/
theorem C75_empty_violated : timeOfDay (.list []) = .error .valueError ∧ ensureUnix (.list []) = .ok (.arr []) := by decide

/-- C75: just before midnight the time of day can be that of the next day, by rounding. -/
theorem C75_midnight_violated : timeOfDay (.one (.num (86400 - 1 / 4000000))) = .ok (.one 0) := by decide +kernel

end Verif.Clock
