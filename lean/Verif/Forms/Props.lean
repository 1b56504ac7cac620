import Verif.Forms.Lemmas
import Verif.Stellar.Lemmas

/-!
# C73: functions of time take numbers, lists and arrays
-/
namespace Verif.Forms

open Verif.Stellar (Sky Obs pmod rint stellarSecond siderealSecond)

theorem scalarize_two (body : List (List ℚ) → Except PyErr (List ℚ)) (a b : Arg) (la lb : List ℚ) (sa sb : Bool)
    (ha : makeArray a = .ok (la, sa)) (hb : makeArray b = .ok (lb, sb)) (h : la ≠ [] ∨ lb ≠ []) :
    scalarize body [a, b] = match body [la, lb] with
      | .error e => .error e
      | .ok r => if sa && sb then
          match r with
          | [] => .error .indexError
          | x :: _ => .ok (.num x)
        else .ok (.arr r) := by
  have he : (la.isEmpty && lb.isEmpty) = false := by
    rcases h with h | h
    · rw [isEmpty_false h]; rfl
    · rw [isEmpty_false h]; simp
  simp only [scalarize, makeArrays, ha, hb, List.all_cons, List.all_nil, Bool.and_true, he, Bool.false_eq_true, if_false, List.map_cons,
    List.map_nil]
  cases body [la, lb] with
  | error e => rfl
  | ok r => cases r <;> rfl

theorem onPairs_of (body : List ℚ → List ℚ → Except PyErr (List ℚ)) (f : ℚ → ℚ → Except Stellar.PyErr ℚ) (bad : ℚ → ℚ → Bool)
    (val : ℚ → ℚ → ℚ) (hf : ∀ x y, f x y = if bad x y then .error .runtimeError else .ok (val x y))
    (hb : ∀ (α : Type) (ps : List α), ps ≠ [] → ∀ (g h : α → ℚ) (a b : List ℚ), Rep ps g a → Rep ps h b → Full ps g a ∨ Full ps h b →
      body a b = if ps.any (fun p => bad (g p) (h p)) then .error .runtimeError else .ok (ps.map fun p => val (g p) (h p))) :
    OnPairs (fun a b => scalarize (fun args => match args with
      | [a, b] => body a b
      | _ => .error .typeError) [a, b]) f := by
  have arrs : ∀ (α : Type) (ps : List α), ps ≠ [] → ∀ (g h : α → ℚ) (a b : List ℚ) (sa sb : Bool) (x y : Arg),
      makeArray x = .ok (a, sa) → makeArray y = .ok (b, sb) → (sa && sb) = false → Rep ps g a → Rep ps h b →
      Full ps g a ∨ Full ps h b →
      scalarize (fun args => match args with
        | [a, b] => body a b
        | _ => .error .typeError) [x, y] = each (fun p => f (g p) (h p)) ps := by
    intro α ps hp g h a b sa sb x y hx hy hsc ra rb rf
    rw [scalarize_two _ x y a b sa sb hx hy (.inl (ra.ne_nil hp)), mapM_check _ _ (fun p => hf (g p) (h p))]
    simp only [hb α ps hp g h a b ra rb rf, hsc]
    by_cases hc : ps.any (fun p => bad (g p) (h p)) = true
    · rw [if_pos hc, if_pos hc]
    · rw [if_neg hc, if_neg hc]
      rfl
  refine ⟨?_, ?_, ?_, ?_⟩
  · intro x y
    show scalarize _ _ = _
    rw [scalarize_two _ (.num x) (.num y) [x] [y] true true rfl rfl (.inl (by simp)), hf, one_check]
    simp only [hb (ℚ × ℚ) [(x, y)] (by simp) (·.1) (·.2) [x] [y] (.inl rfl) (.inl rfl) (.inl rfl)]
    cases hc : bad x y <;> simp [hc]
  · intro x l hl
    exact ⟨arrs ℚ l hl (fun _ => x) id [x] l true false _ _ rfl rfl rfl (.inr ⟨x, rfl, fun _ _ => rfl⟩) (.inl (by simp))
      (.inr (by simp [Full])), arrs ℚ l hl (fun _ => x) id [x] l true false _ _ rfl rfl rfl (.inr ⟨x, rfl, fun _ _ => rfl⟩)
      (.inl (by simp)) (.inr (by simp [Full]))⟩
  · intro l y hl
    exact ⟨arrs ℚ l hl id (fun _ => y) l [y] false true _ _ rfl rfl rfl (.inl (by simp)) (.inr ⟨y, rfl, fun _ _ => rfl⟩)
      (.inl (by simp [Full])), arrs ℚ l hl id (fun _ => y) l [y] false true _ _ rfl rfl rfl (.inl (by simp))
      (.inr ⟨y, rfl, fun _ _ => rfl⟩) (.inl (by simp [Full]))⟩
  · intro ps
    by_cases hp : ps = []
    · subst hp
      exact ⟨rfl, rfl⟩
    · exact ⟨arrs _ ps hp (·.1) (·.2) _ _ false false _ _ rfl rfl rfl (.inl rfl) (.inl rfl) (.inl rfl),
        arrs _ ps hp (·.1) (·.2) _ _ false false _ _ rfl rfl rfl (.inl rfl) (.inl rfl) (.inl rfl)⟩

theorem each_ok {α : Type} (f : α → ℚ) (l : List α) : each (fun t => .ok (f t)) l = .ok (.arr (l.map f)) := by
  rw [mapM_check (f := fun t => .ok (f t)) (fun _ => false) f (fun _ => rfl)]
  simp

/-- **C73** (angle of the Earth). -/
theorem C73_era (k : Sky) : OnTimes (unixToEra k) (fun t => .ok (Stellar.unixToEra k t)) := by
  have h : ∀ l, each (fun t => .ok (Stellar.unixToEra k t)) l = .ok (.arr (l.map (Stellar.unixToEra k))) := by
    exact fun l => each_ok _ l
  refine ⟨fun x => rfl, fun l => ?_, fun l => ?_⟩
  · rw [h, ← unixToEra_arr]
    rfl
  · rw [h, ← unixToEra_arr]

/-- **C73** (leap seconds). -/
theorem C73_leap (k : Sky) :
    OnPairs (leapSecondsBetween k) (fun a b => (Stellar.leapSecondsBetween k a b).map fun n => ((n : ℤ) : ℚ)) := by
  refine onPairs_of (leapBody k) _ (crazy k) (fun a b => ((rint (shift k a b) : ℤ) : ℚ)) ?_ ?_
  · intro x y
    rw [stellar_leaps]
    cases crazy k x y <;> rfl
  · intro α ps hp g h a b ha hb hf
    exact leapBody_eq k ps hp g h a b ha hb hf

/-- **C73** (time of an angle of the Earth). -/
theorem C73_era_to_unix (k : Sky) : OnPairs (eraToUnix k) (Stellar.eraToUnix k) := by
  refine onPairs_of (eraBody k) _ (fun e t => crazy k t (guess k e t))
    (fun e t => guess k e t - ((rint (shift k t (guess k e t)) : ℤ) : ℚ)) (stellar_era k) ?_
  intro α ps hp g h a b ha hb hf
  exact eraBody_eq k ps hp g h a b ha hb hf

theorem each_map {α β : Type} (f : β → Except Stellar.PyErr ℚ) (g : α → β) (l : List α) : each f (l.map g) = each (fun x => f (g x)) l := by
  unfold each
  have : (l.map g).mapM f = l.mapM fun x => f (g x) := by
    induction l with
    | nil => rfl
    | cons x l ih => rw [List.map_cons, List.mapM_cons, List.mapM_cons, ih]
  rw [this]

/-- **C73** (time of a stellar angle). -/
theorem C73_lsa_to_unix (k : Sky) (o : Obs) : OnPairs (lsaToUnix k o) (Stellar.lsaToUnix k o) := by
  obtain ⟨h1, h2, h3, h4⟩ := C73_era_to_unix k
  refine ⟨fun x y => h1 _ _, fun x l hl => ⟨(h2 _ l hl).2, (h2 _ l hl).2⟩, fun l y hl => ?_, fun ps => ?_⟩
  · have := (h3 (l.map fun x => pmod (x - o.longitude) 360) y (by simpa using hl)).2
    rw [each_map] at this
    exact ⟨this, this⟩
  · have := (h4 (ps.map fun p => (pmod (p.1 - o.longitude) 360, p.2))).2
    rw [each_map, List.map_map, List.map_map] at this
    have e : lsaToUnix k o (.arr (ps.map (·.1))) (.arr (ps.map (·.2))) =
        eraToUnix k (.arr ((ps.map (·.1)).map fun x => pmod (x - o.longitude) 360)) (.arr (ps.map (·.2))) := rfl
    rw [List.map_map] at e
    exact ⟨e.trans this, e.trans this⟩

/-- **C73** (stellar angle). -/
theorem C73_lsa (k : Sky) (o : Obs) : OnTimes (unixToLsa k o) (fun t => .ok (Stellar.unixToLsa k o t)) := by
  have h : ∀ l, unixToLsa k o (.arr l) = .ok (.arr (l.map (Stellar.unixToLsa k o))) := by
    intro l
    unfold unixToLsa listize
    simp only [unixToEra_arr, V.map, List.map_map]
    rfl
  exact ⟨fun x => rfl, fun l => by rw [each_ok]; exact h l, fun l => by rw [each_ok]; exact h l⟩

/-- **C73** (lengths). Collections of different lengths, neither of which has just one element, are refused: nothing is cut off. -/
theorem C73_lengths (k : Sky) (o : Obs) (a b : List ℚ) (h : a.length ≠ b.length) (ha : a.length ≠ 1) (hb : b.length ≠ 1) :
    ∀ x ∈ [Arg.list a, .arr a], ∀ y ∈ [Arg.list b, .arr b],
      leapSecondsBetween k x y = .error .valueError ∧ eraToUnix k x y = .error .valueError ∧ lsaToUnix k o x y = .error .valueError := by
  have hne : ∀ a b : List ℚ, a.length ≠ b.length → a ≠ [] ∨ b ≠ [] := by
    intro a b h
    by_contra hc
    push Not at hc
    rw [hc.1, hc.2] at h
    exact h rfl
  have hleap : ∀ x y, makeArray x = .ok (a, false) → makeArray y = .ok (b, false) → leapSecondsBetween k x y = .error .valueError := by
    intro x y hx hy
    unfold leapSecondsBetween
    rw [scalarize_two _ x y a b false false hx hy (hne a b h)]
    simp only [leapBody, bc_error _ b a (Ne.symm h) hb ha]
  have hera : ∀ (a : List ℚ) x y, a.length ≠ b.length → a.length ≠ 1 → makeArray x = .ok (a, false) → makeArray y = .ok (b, false) →
      eraToUnix k x y = .error .valueError := by
    intro a x y h ha hx hy
    unfold eraToUnix
    rw [scalarize_two _ x y a b false false hx hy (hne a b h)]
    simp only [eraBody, unixToEra_arr, V.list]
    rw [bc_error _ a _ (by simpa using h) ha (by simpa using hb)]
  have hlsa : ∀ x y, (listize x).v = .arr a → makeArray (listize y) = .ok (b, false) → lsaToUnix k o x y = .error .valueError := by
    intro x y hx hy
    unfold lsaToUnix
    rw [hx]
    exact hera (a.map fun x => pmod (x - o.longitude) 360) _ _ (by simpa using h) (by simpa using ha) rfl hy
  intro x hx y hy
  simp only [List.mem_cons, List.not_mem_nil, or_false] at hx hy
  rcases hx with rfl | rfl <;> rcases hy with rfl | rfl <;>
    exact ⟨hleap _ _ rfl rfl, hera a _ _ h ha rfl rfl, hlsa _ _ rfl rfl⟩

example : ([1, 2, 3] : List ℚ).length ≠ ([4, 5] : List ℚ).length := by decide


theorem lsdZero_ok (k : Sky) (o : Obs) (z : ℚ) (hz : Stellar.lsdZero k o = .ok z) : lsdZero k o = .ok (.num z) := by
  have := (C73_lsa_to_unix k o).1 0 o.lsdStartDay
  unfold lsdZero
  rw [this]
  unfold Stellar.lsdZero at hz
  rw [hz]
  rfl

theorem mapM_const_ok {α : Type} (f : α → Except Stellar.PyErr ℚ) (g : α → ℚ) (h : ∀ x, f x = .ok (g x)) (l : List α) :
    each f l = .ok (.arr (l.map g)) := by
  rw [← each_ok]
  congr 1
  exact funext h

/-- **C73** (stellar day). -/
theorem C73_lsd (k : Sky) (o : Obs) (z : ℚ) (hz : Stellar.lsdZero k o = .ok z) : OnTimes (unixToLsd k o) (Stellar.unixToLsd k o) := by
  have hz' := lsdZero_ok k o z hz
  have hv : ∀ t, Stellar.unixToLsd k o t = .ok (((rint ((t - z) / (24 * 3600 * siderealSecond) - Stellar.unixToLsa k o t / 360) : ℤ) : ℚ) +
      Stellar.unixToLsa k o t / 360) := by
    intro t
    unfold Stellar.unixToLsd
    simp only [hz]
  have h : ∀ l, unixToLsd k o (.arr l) = each (Stellar.unixToLsd k o) l := by
    intro l
    rw [mapM_const_ok _ _ hv]
    unfold unixToLsd
    rw [show unixToLsa k o (listize (.arr l)) = .ok (.arr (l.map (Stellar.unixToLsa k o))) from
      ((C73_lsa k o).2.2 l).trans (each_ok _ l)]
    simp only [hz', listize, Arg.v, V.map, V.op]
    rw [bc_full _ l _ _ _ _ (Full.rep rfl) (Full.rep (by rw [List.map_map]; rfl)) (.inl rfl)]
    simp only
    rw [bc_full _ l _ _ _ _ (Full.rep rfl) (Full.rep (by rw [List.map_map]; rfl)) (.inl rfl)]
    rfl
  refine ⟨fun x => ?_, fun l => h l, h⟩
  rw [hv x]
  unfold unixToLsd
  rw [show unixToLsa k o (listize (.num x)) = .ok (.num (Stellar.unixToLsa k o x)) from rfl]
  simp only [hz']
  rfl

/-- **C73** (time of a stellar day). -/
theorem C73_lsd_to_unix (k : Sky) (o : Obs) (z : ℚ) (hz : Stellar.lsdZero k o = .ok z) :
    OnTimes (lsdToUnix k o) (Stellar.lsdToUnix k o) := by
  have hz' := lsdZero_ok k o z hz
  obtain ⟨h1, -, -, h4⟩ := C73_lsa_to_unix k o
  have hv : ∀ l, Stellar.lsdToUnix k o l =
      Stellar.lsaToUnix k o (360 * pmod l 1) (z + l * 3600 * 24 * siderealSecond - 12 * 3600) := by
    intro l
    unfold Stellar.lsdToUnix
    simp only [hz]
  have h : ∀ l, lsdToUnix k o (.arr l) = each (Stellar.lsdToUnix k o) l := by
    intro l
    have := (h4 (l.map fun x => (360 * pmod x 1, z + x * 3600 * 24 * siderealSecond - 12 * 3600))).2
    rw [each_map, List.map_map, List.map_map] at this
    unfold lsdToUnix
    simp only [hz', listize, Arg.v, V.map, V.op, V.arg]
    rw [show Stellar.lsdToUnix k o = fun l => Stellar.lsaToUnix k o (360 * pmod l 1) (z + l * 3600 * 24 * siderealSecond - 12 * 3600)
      from funext hv]
    exact this
  refine ⟨fun x => ?_, fun l => h l, h⟩
  rw [hv]
  unfold lsdToUnix
  simp only [hz']
  exact h1 _ _

/-! ### A case -/

/-- The Earth turns once in 86400 seconds, and there are no leap seconds. -/
def plain : Sky := ⟨id, fun x => x / 86400⟩

example : unixToEra plain (.list [0, 21600, 97200]) = .ok (.arr [0, 90, 45]) := by decide +kernel
example : unixToEra plain (.num 21600) = .ok (.num 90) := by decide +kernel
example : leapSecondsBetween plain (.num 3) (.list [5, 7]) = .ok (.arr [0, 0]) := by decide +kernel
example : ∃ z, Stellar.lsdZero plain ⟨0, 0⟩ = .ok z := ⟨0, by decide +kernel⟩

/-! ### Where the property fails -/

/-- C73: arrays without axes are refused (but by `lsd_to_unix`). -/
theorem C73_zerod_violated (k : Sky) (o : Obs) (x : ℚ) :
    unixToEra k (.zerod x) = .error .typeError ∧ unixToLsd k o (.zerod x) = .error .typeError := ⟨rfl, rfl⟩

/-- C73: an empty list of angles with one time to begin with raises. -/
theorem C73_empty_violated (k : Sky) (t : ℚ) : eraToUnix k (.list []) (.num t) = .error .attributeError := by
  have e : eraBody k [] [t] = .error .attributeError := by
    unfold eraBody
    rw [unixToEra_arr]
    rfl
  unfold eraToUnix
  rw [scalarize_two _ _ _ [] [t] false true rfl rfl (.inr (by simp))]
  simp only [e]

/-- **C73** (sidereal time). The local sidereal time of a number is a number, and that of a list or an array which is not empty
is an array of the same length. It is in degrees, from 0 to below 360, and differs by whole turns from fifteen degrees for
each hour of Greenwich sidereal time, plus the longitude. -/
theorem C73_sidereal_partial (gast : ℚ → ℚ) (o : Obs) :
    ∃ f : ℚ → ℚ, (∀ t, 0 ≤ f t ∧ f t < 360 ∧ ∃ n : ℤ, gast t * 15 + o.longitude = f t + 360 * n) ∧
      (∀ t, unixToLst gast o (.num t) = .ok (.num (f t))) ∧
      (∀ l, l ≠ [] → unixToLst gast o (.list l) = .ok (.arr (l.map f)) ∧ unixToLst gast o (.arr l) = .ok (.arr (l.map f))) := by
  refine ⟨fun t => pmod (gast t * 15 + o.longitude) 360, fun t => ?_, fun t => rfl, fun l hl => ?_⟩
  · have e := Stellar.pmod_eq (gast t * 15 + o.longitude) 360 (by norm_num)
    have f0 := Int.fract_nonneg ((gast t * 15 + o.longitude) / 360)
    have f1 := Int.fract_lt_one ((gast t * 15 + o.longitude) / 360)
    exact ⟨by show 0 ≤ pmod _ _; rw [e]; linarith, by show pmod _ _ < _; rw [e]; linarith, ⌊(gast t * 15 + o.longitude) / 360⌋, by
      show _ = pmod _ _ + _
      unfold pmod
      ring⟩
  · have h : unixToLst gast o (.arr l) = .ok (.arr (l.map fun t => pmod (gast t * 15 + o.longitude) 360)) := by
      simp [unixToLst, listize, makeArray, timeAttr, hl, V.map, Function.comp_def]
    exact ⟨h, h⟩

/-- C73: a quarter turn east of Greenwich, at the sidereal hours 17 and 18. -/
example : unixToLst id ⟨90, 0⟩ (.list [17, 18]) = .ok (.arr [345, 0]) := by decide +kernel

/-- C73: so does the sidereal time of an empty list. -/
theorem C73_sidereal_violated (gast : ℚ → ℚ) (o : Obs) : unixToLst gast o (.list []) = .error .attributeError := rfl

/-- C73: a call with keyword arguments only is refused by what `scalarize` decorates. -/
theorem C73_keywords_violated (body : List (List ℚ) → Except PyErr (List ℚ)) : scalarize body [] = .error .valueError := rfl

end Verif.Forms
