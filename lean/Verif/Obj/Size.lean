import Mathlib.Logic.Relation
import Mathlib.Data.List.Nodup
import Mathlib.Tactic.Common

/-!
# C48: `total_size`

Models `caput/util/objecttools.py:103-161`. Objects are numbered (`id`). Temporary objects, such as the mapping
proxies that `vars` makes for classes, are not modelled. Python's limit on nested calls is a parameter, in units
of calls of `sizeof`.
-/
namespace Verif.Obj

/-- What `total_size` sees of an object: whether it is a module; its own size (`getsizeof`); what it iterates over
(the elements of tuples, lists, sets and deques; the keys and values of mappings; nothing for strings, bytes,
numbers and ranges or any other type); its `__dict__`; the values of the attributes in `x.__slots__`; and what it
refers to in other ways (elements of frozen sets, of object arrays; slots of base classes). -/
structure PyObj where
  isModule : Bool
  size : Nat
  items : List Nat
  dict : Option Nat
  slots : List Nat
  hidden : List Nat

/-- The outcome of a call. -/
inductive SRes where
  | ok (n : Nat)
  | typeError
  | recursionError
  deriving DecidableEq

/-- `sum(map(sizeof, xs))`: stops at the first exception. `seen` is threaded through. -/
def sumAll (v : List Nat → Nat → SRes × List Nat) : List Nat → List Nat → SRes × List Nat
  | seen, [] => (.ok 0, seen)
  | seen, x :: xs =>
    match v seen x with
    | (.ok n, seen') =>
      match sumAll v seen' xs with
      | (.ok m, seen'') => (.ok (n + m), seen'')
      | r => r
    | r => r

/-- objecttools.py:124-128 `sum_`: a `TypeError` gives 0. -/
def sumCaught (v : List Nat → Nat → SRes × List Nat) (seen xs : List Nat) : SRes × List Nat :=
  match sumAll v seen xs with
  | (.typeError, seen') => (.ok 0, seen')
  | r => r

/-- objecttools.py:151-152: the `__dict__`, whose exceptions are not caught. -/
def addDict (v : List Nat → Nat → SRes × List Nat) (seen : List Nat) : Option Nat → SRes × List Nat
  | none => (.ok 0, seen)
  | some d => v seen d

/-- objecttools.py:130-159 `sizeof`. The first argument is the number of nested calls still possible. -/
def sizeof (H : Nat → PyObj) : Nat → List Nat → Nat → SRes × List Nat
  | 0, seen, _ => (.recursionError, seen)
  | f + 1, seen, x =>
    if (H x).isModule then (.typeError, seen)
    else if x ∈ seen then (.ok 0, seen)
    else
      match sumCaught (sizeof H f) (x :: seen) (H x).items with
      | (.ok a, s1) =>
        match addDict (sizeof H f) s1 (H x).dict with
        | (.ok b, s2) =>
          match sumCaught (sizeof H f) s2 (H x).slots with
          | (.ok c, s3) => (.ok ((H x).size + a + b + c), s3)
          | r => r
        | r => r
      | r => r

/-- objecttools.py:103-161 `total_size`. -/
def totalSize (H : Nat → PyObj) (limit x : Nat) : SRes := (sizeof H limit [] x).1

/-! ## Specification -/

/-- Everything an object refers to. -/
def PyObj.refs (o : PyObj) : List Nat := o.items ++ o.dict.toList ++ o.slots ++ o.hidden

/-- `y` can be reached from `x`. -/
def Reach (H : Nat → PyObj) (x y : Nat) : Prop := Relation.ReflTransGen (fun a b => b ∈ (H a).refs) x y

/-! ## Lemmas -/

/-- What the loop visits. -/
def PyObj.visited (o : PyObj) : List Nat := o.items ++ o.dict.toList ++ o.slots

/-- The number of objects of `R` not seen yet. -/
def unseen : List Nat → List Nat → Nat
  | [], _ => 0
  | a :: R, seen => if a ∈ seen then unseen R seen else unseen R seen + 1

theorem unseen_le (R s : List Nat) : unseen R s ≤ R.length := by
  induction R with
  | nil => simp [unseen]
  | cons a R ih =>
    simp only [unseen, List.length_cons]
    split <;> omega

theorem unseen_mono (R s t : List Nat) (h : ∀ y ∈ s, y ∈ t) : unseen R t ≤ unseen R s := by
  induction R with
  | nil => simp [unseen]
  | cons a R ih =>
    simp only [unseen]
    by_cases h1 : a ∈ t
    · rw [if_pos h1]
      split <;> omega
    · rw [if_neg h1, if_neg (fun hs => h1 (h a hs))]
      omega

theorem unseen_cons (R s : List Nat) (x : Nat) (hx : x ∈ R) (hs : x ∉ s) : unseen R (x :: s) < unseen R s := by
  induction R with
  | nil => simp at hx
  | cons a R ih =>
    simp only [unseen]
    by_cases hax : a = x
    · subst hax
      rw [if_pos (List.mem_cons_self ..), if_neg hs]
      have := unseen_mono R s (a :: s) (fun y hy => List.mem_cons_of_mem _ hy)
      omega
    · have hxR : x ∈ R := by
        rcases List.mem_cons.1 hx with h | h
        · exact absurd h.symm hax
        · exact h
      have := ih hxR
      by_cases h1 : a ∈ s
      · rw [if_pos (List.mem_cons_of_mem _ h1), if_pos h1]
        exact this
      · rw [if_neg (by simp [hax, h1]), if_neg h1]
        omega

/-- What a successful call does to the set of seen objects. -/
structure Grows (H : Nat → PyObj) (start : Nat → Prop) (seen seen' : List Nat) (n : Nat) : Prop where
  nodup : seen.Nodup → seen'.Nodup
  sub : ∀ y ∈ seen, y ∈ seen'
  closed : ∀ y ∈ seen', y ∉ seen → ∀ z ∈ (H y).visited, z ∈ seen'
  reach : ∀ y ∈ seen', y ∉ seen → ∃ x, start x ∧ Relation.ReflTransGen (fun a b => b ∈ (H a).visited) x y
  sum : (seen'.map fun y => (H y).size).sum = (seen.map fun y => (H y).size).sum + n

theorem Grows.refl (H : Nat → PyObj) (start : Nat → Prop) (seen : List Nat) : Grows H start seen seen 0 :=
  ⟨id, fun _ h => h, fun _ h1 h2 => absurd h1 h2, fun _ h1 h2 => absurd h1 h2, by simp⟩

theorem Grows.trans {H : Nat → PyObj} {p q : Nat → Prop} {s1 s2 s3 : List Nat} {n m : Nat}
    (h1 : Grows H p s1 s2 n) (h2 : Grows H q s2 s3 m) : Grows H (fun x => p x ∨ q x) s1 s3 (n + m) := by
  refine ⟨fun h => h2.nodup (h1.nodup h), fun y h => h2.sub y (h1.sub y h), ?_, ?_, ?_⟩
  · intro y hy hn z hz
    by_cases hm : y ∈ s2
    · exact h2.sub z (h1.closed y hm hn z hz)
    · exact h2.closed y hy hm z hz
  · intro y hy hn
    by_cases hm : y ∈ s2
    · obtain ⟨x, hx, hr⟩ := h1.reach y hm hn
      exact ⟨x, Or.inl hx, hr⟩
    · obtain ⟨x, hx, hr⟩ := h2.reach y hy hm
      exact ⟨x, Or.inr hx, hr⟩
  · rw [h2.sum, h1.sum]
    omega

theorem Grows.imp {H : Nat → PyObj} {p q : Nat → Prop} {s1 s2 : List Nat} {n : Nat}
    (h : Grows H p s1 s2 n) (hpq : ∀ x, p x → q x) : Grows H q s1 s2 n :=
  ⟨h.nodup, h.sub, h.closed, fun y hy hn => by
    obtain ⟨x, hx, hr⟩ := h.reach y hy hn
    exact ⟨x, hpq x hx, hr⟩, h.sum⟩

/-- What is shown of `sizeof` with `f` nested calls, for a set `R` of objects closed under visiting. -/
def Good (H : Nat → PyObj) (R : List Nat) (f : Nat) : Prop :=
  ∀ seen x, x ∈ R → unseen R seen < f → ∃ n seen', sizeof H f seen x = (.ok n, seen') ∧
    Grows H (· = x) seen seen' n ∧ x ∈ seen'

theorem sumAll_good (H : Nat → PyObj) (R : List Nat) (f : Nat) (hg : Good H R f) (seen xs : List Nat)
    (hxs : ∀ x ∈ xs, x ∈ R) (hf : unseen R seen < f) :
    ∃ n seen', sumAll (sizeof H f) seen xs = (.ok n, seen') ∧ Grows H (· ∈ xs) seen seen' n ∧
      ∀ x ∈ xs, x ∈ seen' := by
  induction xs generalizing seen with
  | nil => exact ⟨0, seen, rfl, Grows.refl _ _ _, by simp⟩
  | cons x xs ih =>
    obtain ⟨n, s1, e1, g1, m1⟩ := hg seen x (hxs x (List.mem_cons_self ..)) hf
    obtain ⟨m, s2, e2, g2, m2⟩ := ih s1 (fun y hy => hxs y (List.mem_cons_of_mem _ hy))
      (Nat.lt_of_le_of_lt (unseen_mono R seen s1 g1.sub) hf)
    refine ⟨n + m, s2, ?_, (g1.trans g2).imp ?_, ?_⟩
    · simp only [sumAll, e1, e2]
    · intro y hy
      rcases hy with rfl | hy
      · exact List.mem_cons_self ..
      · exact List.mem_cons_of_mem _ hy
    · intro y hy
      rcases List.mem_cons.1 hy with rfl | hy
      · exact g2.sub _ m1
      · exact m2 y hy

theorem sumCaught_good (H : Nat → PyObj) (R : List Nat) (f : Nat) (hg : Good H R f) (seen xs : List Nat)
    (hxs : ∀ x ∈ xs, x ∈ R) (hf : unseen R seen < f) :
    ∃ n seen', sumCaught (sizeof H f) seen xs = (.ok n, seen') ∧ Grows H (· ∈ xs) seen seen' n ∧
      ∀ x ∈ xs, x ∈ seen' := by
  obtain ⟨n, s, e, g⟩ := sumAll_good H R f hg seen xs hxs hf
  exact ⟨n, s, by simp only [sumCaught, e], g⟩

theorem addDict_good (H : Nat → PyObj) (R : List Nat) (f : Nat) (hg : Good H R f) (seen : List Nat) (d : Option Nat)
    (hd : ∀ x ∈ d.toList, x ∈ R) (hf : unseen R seen < f) :
    ∃ n seen', addDict (sizeof H f) seen d = (.ok n, seen') ∧ Grows H (· ∈ d.toList) seen seen' n ∧
      ∀ x ∈ d.toList, x ∈ seen' := by
  cases d with
  | none => exact ⟨0, seen, rfl, Grows.refl _ _ _, by simp⟩
  | some d =>
    obtain ⟨n, s, e, g, m⟩ := hg seen d (hd d (by simp)) hf
    exact ⟨n, s, e, g.imp (by simp), by simpa using m⟩

theorem sizeof_good (H : Nat → PyObj) (R : List Nat) (hmod : ∀ x ∈ R, (H x).isModule = false)
    (hR : ∀ x ∈ R, ∀ y ∈ (H x).visited, y ∈ R) (f : Nat) : Good H R f := by
  induction f with
  | zero => intro seen x _ h; omega
  | succ f ih =>
    intro seen x hx hf
    unfold sizeof
    rw [if_neg (by simp [hmod x hx])]
    by_cases hs : x ∈ seen
    · rw [if_pos hs]
      exact ⟨0, seen, rfl, Grows.refl _ _ _, hs⟩
    · rw [if_neg hs]
      have hvis := hR x hx
      have hf0 : unseen R (x :: seen) < f := by
        have := unseen_cons R seen x hx hs
        omega
      obtain ⟨a, s1, e1, g1, m1⟩ := sumCaught_good H R f ih (x :: seen) (H x).items
        (fun y hy => hvis y (by simp [PyObj.visited, hy])) hf0
      have hf1 := Nat.lt_of_le_of_lt (unseen_mono R _ _ g1.sub) hf0
      obtain ⟨b, s2, e2, g2, m2⟩ := addDict_good H R f ih s1 (H x).dict
        (fun y hy => hvis y (by simp only [PyObj.visited, List.mem_append]; exact Or.inl (Or.inr hy))) hf1
      have hf2 := Nat.lt_of_le_of_lt (unseen_mono R _ _ g2.sub) hf1
      obtain ⟨c, s3, e3, g3, m3⟩ := sumCaught_good H R f ih s2 (H x).slots
        (fun y hy => hvis y (by simp [PyObj.visited, hy])) hf2
      have g := (g1.trans g2).trans g3
      have hmem : ∀ z ∈ (H x).visited, z ∈ s3 := by
        intro z hz
        simp only [PyObj.visited, List.mem_append] at hz
        rcases hz with (hz | hz) | hz
        · exact g3.sub _ (g2.sub _ (m1 z hz))
        · exact g3.sub _ (m2 z hz)
        · exact m3 z hz
      have hxs : x ∈ s3 := g.sub x (List.mem_cons_self ..)
      refine ⟨(H x).size + a + b + c, s3, ?_, ⟨?_, ?_, ?_, ?_, ?_⟩, hxs⟩
      · simp only [e1, e2, e3]
      · intro h
        exact g.nodup (List.nodup_cons.2 ⟨hs, h⟩)
      · intro y hy
        exact g.sub y (List.mem_cons_of_mem _ hy)
      · intro y hy hn
        by_cases hyx : y = x
        · subst hyx; exact hmem
        · exact g.closed y hy (by simp [hyx, hn])
      · intro y hy hn
        by_cases hyx : y = x
        · subst hyx; exact ⟨y, rfl, .refl⟩
        · obtain ⟨z, hz, hr⟩ := g.reach y hy (by simp [hyx, hn])
          refine ⟨x, rfl, Relation.ReflTransGen.head ?_ hr⟩
          simp only [PyObj.visited, List.mem_append]
          tauto
      · rw [g.sum]
        simp only [List.map_cons, List.sum_cons]
        omega

/-! ## The property -/

/-- C48, if no module can be reached and objects refer to others only in the ways that are followed: with enough
nested calls (one more than there are objects), the result is the sum of the sizes of the objects that can be
reached, each counted once. Cycles are allowed. -/
theorem C48_sum_partial (H : Nat → PyObj) (R : List Nat) (x : Nat) (hx : x ∈ R)
    (hR : ∀ a ∈ R, ∀ b ∈ (H a).refs, b ∈ R)
    (hmod : ∀ y, Reach H x y → (H y).isModule = false) (hhid : ∀ y, Reach H x y → (H y).hidden = [])
    (limit : Nat) (hl : R.length < limit) :
    ∃ L : List Nat, L.Nodup ∧ (∀ y, y ∈ L ↔ Reach H x y) ∧
      totalSize H limit x = .ok (L.map fun y => (H y).size).sum := by
  classical
  -- the reachable part of R
  have hreachR : ∀ y, Reach H x y → y ∈ R := by
    intro y hy
    induction hy with
    | refl => exact hx
    | tail _ h ih => exact hR _ ih _ h
  let R' := R.filter fun y => Reach H x y
  have hR' : ∀ y, y ∈ R' ↔ Reach H x y := by
    intro y
    simp only [R', List.mem_filter, decide_eq_true_eq]
    exact ⟨fun h => h.2, fun h => ⟨hreachR y h, h⟩⟩
  have hvr : ∀ a b, b ∈ (H a).visited → b ∈ (H a).refs := by
    intro a b hb
    simp only [PyObj.refs, PyObj.visited, List.mem_append] at hb ⊢
    exact Or.inl hb
  have hrv : ∀ a b, Reach H x a → b ∈ (H a).refs → b ∈ (H a).visited := by
    intro a b ha hb
    simp only [PyObj.refs, hhid a ha, List.append_nil] at hb
    exact hb
  have hlen : R'.length ≤ R.length := List.length_filter_le _ _
  have hun : unseen R' [] < limit := by
    have : unseen R' [] ≤ R'.length := unseen_le _ _
    omega
  obtain ⟨n, s, e, g, m⟩ := sizeof_good H R' (fun y hy => hmod y ((hR' y).1 hy))
    (fun a ha b hb => (hR' b).2 (((hR' a).1 ha).tail (hvr a b hb))) limit [] x ((hR' x).2 .refl) hun
  refine ⟨s, g.nodup List.nodup_nil, ?_, ?_⟩
  · intro y
    constructor
    · intro hy
      obtain ⟨z, rfl, hr⟩ := g.reach y hy (by simp)
      exact Relation.ReflTransGen.mono (fun a b hb => hvr a b hb) _ _ hr
    · intro hy
      have : y ∈ s ∧ Reach H x y := by
        induction hy with
        | refl => exact ⟨m, .refl⟩
        | tail h1 h2 ih => exact ⟨g.closed _ ih.1 (by simp) _ (hrv _ _ h1 h2), h1.tail h2⟩
      exact this.1
  · unfold totalSize
    rw [e]
    have := g.sum
    simp only [List.map_nil, List.sum_nil, Nat.zero_add] at this
    rw [this]

/-- A list with `n` lists inside each other: object `i` contains object `i + 1`. -/
def nested (i : Nat) : PyObj := ⟨false, 1, [i + 1], none, [], []⟩

/-- C48 fails for deep structures: for every limit on nested calls there is an acyclic structure, of `limit`
lists inside each other, for which `RecursionError` is raised. -/
theorem C48_depth_violated (limit i : Nat) (seen : List Nat) (hs : ∀ y ∈ seen, y < i) (hn : 0 < limit) :
    (sizeof (fun j => if j < i + limit then nested j else ⟨false, 1, [], none, [], []⟩) limit seen i).1 =
      .recursionError := by
  induction limit generalizing i seen with
  | zero => omega
  | succ n ih =>
    unfold sizeof
    rw [if_pos (show i < i + (n + 1) by omega)]
    have hnot : i ∉ seen := fun h => absurd (hs i h) (Nat.lt_irrefl _)
    simp only [nested, Bool.false_eq_true, if_false, if_neg hnot]
    by_cases hn0 : n = 0
    · subst hn0
      simp [sumCaught, sumAll, sizeof]
    · have hih := ih (i + 1) (i :: seen) (by
        intro y hy
        rcases List.mem_cons.1 hy with rfl | hy
        · omega
        · have := hs y hy; omega) (by omega)
      have he : i + 1 + n = i + (n + 1) := by omega
      rw [he] at hih
      simp only [nested] at hih
      generalize hr : sizeof _ n (i :: seen) (i + 1) = r at hih ⊢
      obtain ⟨r1, r2⟩ := r
      simp only at hih
      subst hih
      simp [sumCaught, sumAll, hr]

/-- C48 fails if a module is referred to: in a list of a string, a module and another string, the elements
count nothing, not even the first one. -/
theorem C48_module_violated :
    totalSize (fun i => match i with
      | 0 => ⟨false, 80, [1, 2, 3], none, [], []⟩
      | 1 => ⟨false, 50, [], none, [], []⟩
      | 2 => ⟨true, 70, [], none, [], []⟩
      | _ => ⟨false, 60, [], none, [], []⟩) 1000 0 = .ok 80 := by decide +kernel

/-- C48 fails for elements of frozen sets, object arrays, and slots of base classes: they are not counted, so the
result is less than the sum. -/
theorem C48_hidden_violated (H : Nat → PyObj) (limit x y : Nat) (hm : (H x).isModule = false)
    (hi : (H x).items = []) (hd : (H x).dict = none) (hs : (H x).slots = []) (hl : 0 < limit)
    (hy : y ∈ (H x).hidden) (hyx : y ≠ x) (hpos : 0 < (H y).size) :
    totalSize H limit x = .ok (H x).size ∧
    ∀ L : List Nat, (∀ z, z ∈ L ↔ Reach H x z) → (H x).size < (L.map fun z => (H z).size).sum := by
  constructor
  · cases limit with
    | zero => omega
    | succ n => simp [totalSize, sizeof, hm, hi, hd, hs, sumCaught, sumAll, addDict]
  · intro L hL
    have hx : x ∈ L := (hL x).2 .refl
    have hyL : y ∈ L := (hL y).2 (Relation.ReflTransGen.single (by simp [PyObj.refs, hy]))
    have h1 : (L.map fun z => (H z).size).sum = (H x).size + ((L.erase x).map fun z => (H z).size).sum := by
      have := ((List.perm_cons_erase hx).map fun z => (H z).size).sum_nat
      simpa using this
    have hye : y ∈ L.erase x := (List.mem_erase_of_ne hyx).2 hyL
    have h2 : (H y).size ≤ ((L.erase x).map fun z => (H z).size).sum := by
      have := ((List.perm_cons_erase hye).map fun z => (H z).size).sum_nat
      simp only [List.map_cons, List.sum_cons] at this
      omega
    omega

/-- A list that contains itself and another list twice. -/
example : totalSize (fun i => match i with
      | 0 => ⟨false, 80, [0, 1, 1], none, [], []⟩
      | _ => ⟨false, 50, [0], none, [], []⟩) 4 0 = .ok 130 := by decide +kernel

end Verif.Obj
