import Mathlib.Tactic.Common

/-!
# C59: the calling convention of the multithreaded methods

Models `caput/algorithms/random.py:66-81` (the table of methods) and `146-221` (`_call` and `_fill`): how the
arguments of a call are read, when it goes to the threads, and with which arguments each thread calls the method of
`numpy`. The signatures of those methods are from the documentation of `numpy.random.Generator`.
-/
namespace Verif.Rng

/-- Data types. -/
inductive DType where
  | float32
  | float64
  | int32
  | int64
  deriving DecidableEq

/-- What the code asks about an array. -/
structure ArrInfo where
  id : Nat
  shape : List Nat
  dtype : DType
  deriving DecidableEq

/-- An argument. Scalars are numbers (`True` is 1). -/
inductive Val where
  | none
  | scalar (n : Int)
  | tuple (l : List Nat)
  | array (a : ArrInfo)
  | dtype (d : DType)
  deriving DecidableEq

/-- `np.isscalar`. -/
def Val.isScalar : Val → Bool
  | .scalar _ => true
  | _ => false

/-- A method: its parameters in `numpy`, how many of them come before `size`, and the default data type, whether
there is a `dtype` and whether there is an `out` argument, as in the table. -/
structure Method where
  params : List String
  nparam : Nat
  defdtype : DType
  hasDtype : Bool
  hasOut : Bool

/-- random.py:74-82. -/
def random : Method := ⟨["size", "dtype", "out"], 0, .float64, true, true⟩
/-- The same. -/
def integers : Method := ⟨["low", "high", "size", "dtype", "endpoint"], 2, .int64, true, false⟩
/-- The same. -/
def uniform : Method := ⟨["low", "high", "size"], 2, .float64, false, false⟩
/-- The same. -/
def normal : Method := ⟨["loc", "scale", "size"], 2, .float64, false, false⟩
/-- The same. -/
def standardNormal : Method := ⟨["size", "dtype", "out"], 0, .float64, true, true⟩
/-- The same. -/
def poisson : Method := ⟨["lam", "size"], 1, .float64, false, false⟩
/-- The same. -/
def power : Method := ⟨["a", "size"], 1, .float64, false, false⟩

/-- All methods. -/
def methods : List Method := [random, integers, uniform, normal, standardNormal, poisson, power]

/-- Keyword arguments. -/
abbrev Kwargs := List (String × Val)

/-- `kwargs.get(k)`. -/
def Kwargs.get (k : Kwargs) (name : String) : Option Val := (k.find? (·.1 == name)).map (·.2)

/-- `kwargs` after `kwargs.pop(k)`. -/
def Kwargs.pop (k : Kwargs) (name : String) : Kwargs := k.filter (·.1 != name)

/-- Exceptions. -/
inductive CErr where
  | attributeError
  | runtimeError
  deriving DecidableEq

/-- random.py:150-156: the size and the remaining keyword arguments. -/
def readSize (m : Method) (args : List Val) (kw : Kwargs) : Val × Kwargs :=
  match args[m.nparam]? with
  | some v => (v, kw)
  | none =>
    match kw.get "size" with
    | some v => (v, kw.pop "size")
    | none => (.none, kw)

/-- random.py:158-163: `out`, the size and the remaining keyword arguments. -/
def readOut (m : Method) (size : Val) (kw : Kwargs) : Except CErr (Option ArrInfo × Val × Kwargs) :=
  match (if m.hasOut then kw.get "out" else none) with
  | none => .ok (none, size, kw)
  | some (.array a) => .ok (some a, .tuple a.shape, kw.pop "out")
  | some _ => .error .attributeError

/-- random.py:165-171: the data type and the remaining keyword arguments. -/
def readDtype (m : Method) (args : List Val) (kw : Kwargs) : Val × Kwargs :=
  match (if m.hasDtype then args[m.nparam + 1]? else none) with
  | some v => (v, kw)
  | none =>
    match (if m.hasDtype then kw.get "dtype" else none) with
    | some v => (v, kw.pop "dtype")
    | none => (.dtype m.defdtype, kw)

/-- `np.prod(size)`; 0 for what is no size (`numpy` raises then, here or in the direct call). -/
def prodSize : Val → Int
  | .scalar n => n
  | .tuple l => l.foldl (fun a (b : Nat) => a * b) 1
  | _ => 0

/-- What is done with a call. -/
inductive Plan where
  /-- The method of `numpy` is called with the original arguments. -/
  | direct (args : List Val) (kw : Kwargs)
  /-- The threads fill an array of the given shape and type, or `out`. -/
  | threads (args : List Val) (kw : Kwargs) (size dtype : Val) (out : Option ArrInfo)
  deriving DecidableEq

/-- random.py:173-198. -/
def decidePlan (m : Method) (args0 : List Val) (kw0 : Kwargs) (size dtype : Val) (out : Option ArrInfo)
    (kw : Kwargs) : Plan :=
  if (size = .none ∧ out = none) ∨ ¬ ((args0.take m.nparam).all Val.isScalar && kw.all (·.2.isScalar)) then
    .direct args0 kw0
  else if prodSize size < 1000 then .direct args0 kw0
  else .threads (args0.take m.nparam) kw size dtype out

/-- random.py:146-198: the first part of `_call`. -/
def plan (m : Method) (args : List Val) (kw : Kwargs) : Except CErr Plan :=
  match readOut m (readSize m args kw).1 (readSize m args kw).2 with
  | .error e => .error e
  | .ok (out, size, kw1) =>
    .ok (decidePlan m args kw size (readDtype m args kw1).1 out (readDtype m args kw1).2)

/-- random.py:206-221: the keyword arguments with which a thread calls the method; `slice` is its part of the
array. -/
def workerKw (m : Method) (kw : Kwargs) (dtype : Val) (slice : ArrInfo) : Kwargs :=
  (if m.hasDtype then [("dtype", dtype)] else []) ++
    (if m.hasOut then [("out", .array slice)] else [("size", .scalar (slice.shape.headD 0))]) ++ kw

/-! ## Specification -/

/-- The value of a parameter of a function in a Python call, if it is given. -/
def bound (params : List String) (args : List Val) (kw : Kwargs) (p : String) : Option Val :=
  match ((params.zip args).find? (·.1 == p)).map (·.2) with
  | some v => some v
  | none => kw.get p

/-- Python accepts the call: not too many arguments, no unknown names, no argument given twice. -/
def Accepted (params : List String) (args : List Val) (kw : Kwargs) : Prop :=
  args.length ≤ params.length ∧ (kw.map (·.1)).Nodup ∧
    ∀ k ∈ kw.map (·.1), k ∈ params ∧ k ∉ params.take args.length

/-- The data type of what the method of `numpy` returns. -/
def numpyDtype (m : Method) (args : List Val) (kw : Kwargs) (integer : Bool) : Val :=
  match (if "dtype" ∈ m.params then bound m.params args kw "dtype" else none) with
  | some v => v
  | none => .dtype (if integer then .int64 else .float64)

/-! ## Lemmas -/

theorem find_zip_take (params : List String) (hn : params.Nodup) (args : List Val) (k : Nat) (p : String)
    (hp : p ∈ params.take k ∨ p ∉ params.take args.length) :
    (params.zip (args.take k)).find? (·.1 == p) = (params.zip args).find? (·.1 == p) := by
  induction params generalizing args k with
  | nil => simp
  | cons q qs ih =>
    cases args with
    | nil => simp
    | cons a as =>
      cases k with
      | zero =>
        simp only [List.take_zero, List.not_mem_nil, false_or] at hp
        simp only [List.take_zero, List.zip_nil_right, List.find?_nil]
        symm
        rw [List.find?_eq_none]
        intro x hx hxp
        have hxp' : x.1 = p := by simpa using hxp
        apply hp
        subst hxp'
        obtain ⟨i, hi⟩ := List.mem_iff_getElem?.1 hx
        rw [List.getElem?_zip_eq_some] at hi
        have hlt := (List.getElem?_eq_some_iff.1 hi.2).1
        exact List.mem_iff_getElem?.2 ⟨i, by rw [List.getElem?_take_of_lt hlt]; exact hi.1⟩
      | succ k =>
        simp only [List.take_succ_cons, List.zip_cons_cons, List.find?_cons]
        by_cases hq : q = p
        · simp [hq]
        · have hqf : (q == p) = false := by simpa using hq
          simp only [hqf]
          apply ih (List.nodup_cons.1 hn).2
          simp only [List.take_succ_cons, List.mem_cons, List.length_cons, not_or] at hp
          rcases hp with h | h
          · exact Or.inl (h.resolve_left (fun e => hq e.symm))
          · exact Or.inr h.2

theorem get_pop (kw : Kwargs) (name p : String) (h : p ≠ name) : (kw.pop name).get p = kw.get p := by
  unfold Kwargs.get Kwargs.pop
  congr 1
  induction kw with
  | nil => rfl
  | cons x xs ih =>
    by_cases hx : x.1 = name
    · have h1 : (x.1 == p) = false := beq_eq_false_iff_ne.2 (fun e => h (e.symm.trans hx))
      have h2 : (x.1 != name) = false := by simp [hx]
      simp only [List.filter_cons, h2, Bool.false_eq_true, if_false, List.find?_cons, h1]
      exact ih
    · simp only [List.filter_cons, List.find?_cons]
      have : (x.1 != name) = true := by simpa using hx
      simp only [this, if_true, List.find?_cons]
      split
      · rfl
      · exact ih

/-- The methods of the table are as the proofs need them. -/
theorem methods_nodup : ∀ m ∈ methods, m.params.Nodup := by decide

/-- Parameters other than size, type and output array come before the size, or last. -/
theorem methods_layout : ∀ m ∈ methods, ∀ p ∈ m.params, p ≠ "size" → p ≠ "dtype" → p ≠ "out" →
    p ∈ m.params.take m.nparam ∨ p ∉ m.params.take (m.nparam + 2) := by decide

theorem readSize_get (m : Method) (args : List Val) (kw : Kwargs) (p : String) (h : p ≠ "size") :
    (readSize m args kw).2.get p = kw.get p := by
  unfold readSize
  split
  · rfl
  · split
    · exact get_pop kw _ p h
    · rfl

theorem readDtype_get (m : Method) (args : List Val) (kw : Kwargs) (p : String) (h : p ≠ "dtype") :
    (readDtype m args kw).2.get p = kw.get p := by
  unfold readDtype
  split
  · rfl
  · split
    · exact get_pop kw _ p h
    · rfl

theorem readOut_get (m : Method) (size : Val) (kw : Kwargs) (out : Option ArrInfo) (size' : Val) (kw' : Kwargs)
    (hr : readOut m size kw = .ok (out, size', kw')) (p : String) (h : p ≠ "out") : kw'.get p = kw.get p := by
  unfold readOut at hr
  split at hr
  · simp only [Except.ok.injEq, Prod.mk.injEq] at hr
    rw [← hr.2.2]
  · simp only [Except.ok.injEq, Prod.mk.injEq] at hr
    rw [← hr.2.2]
    exact get_pop kw _ p h
  · simp at hr

/-- A call that goes to the threads, unfolded. -/
theorem plan_threads (m : Method) (args : List Val) (kw : Kwargs) (a : List Val) (k : Kwargs) (size dtype : Val)
    (out : Option ArrInfo) (h : plan m args kw = .ok (.threads a k size dtype out)) :
    ∃ kw1, readOut m (readSize m args kw).1 (readSize m args kw).2 = .ok (out, size, kw1) ∧
      a = args.take m.nparam ∧ k = (readDtype m args kw1).2 ∧ dtype = (readDtype m args kw1).1 ∧
      1000 ≤ prodSize size ∧ (args.take m.nparam).all Val.isScalar = true ∧ k.all (·.2.isScalar) = true := by
  unfold plan at h
  cases hr : readOut m (readSize m args kw).1 (readSize m args kw).2 with
  | error e => simp [hr] at h
  | ok r =>
    obtain ⟨out', size', kw1⟩ := r
    simp only [hr, Except.ok.injEq] at h
    unfold decidePlan at h
    split at h
    · simp at h
    · rename_i hcond
      split at h
      · simp at h
      · rename_i hsz
        simp only [Plan.threads.injEq] at h
        obtain ⟨rfl, rfl, rfl, rfl, rfl⟩ := h
        refine ⟨kw1, rfl, rfl, rfl, rfl, by omega, ?_, ?_⟩
        · simp only [not_or, not_not, Bool.and_eq_true] at hcond
          exact hcond.2.1
        · simp only [not_or, not_not, Bool.and_eq_true] at hcond
          exact hcond.2.2

theorem get_append (k l : Kwargs) (p : String) (h : ∀ x ∈ k, x.1 ≠ p) : Kwargs.get (k ++ l) p = Kwargs.get l p := by
  unfold Kwargs.get
  rw [List.find?_append, List.find?_eq_none.2]
  · rfl
  · intro x hx
    simpa using h x hx

theorem get_none_of_notMem (kw : Kwargs) (p : String) (h : p ∉ kw.map (·.1)) : kw.get p = none := by
  unfold Kwargs.get
  rw [List.find?_eq_none.2]
  · rfl
  · intro x hx hxp
    exact h (List.mem_map.2 ⟨x, hx, by simpa using hxp⟩)

theorem notMem_of_get_none (kw : Kwargs) (p : String) (h : kw.get p = none) : p ∉ kw.map (·.1) := by
  unfold Kwargs.get at h
  intro hp
  obtain ⟨x, hx, rfl⟩ := List.mem_map.1 hp
  rw [Option.map_eq_none_iff, List.find?_eq_none] at h
  exact h x hx (by simp)

theorem pop_sub (kw : Kwargs) (name : String) : List.Sublist ((kw.pop name).map (·.1)) (kw.map (·.1)) :=
  List.filter_sublist.map _

theorem notMem_pop (kw : Kwargs) (name : String) : name ∉ (kw.pop name).map (·.1) := by
  simp [Kwargs.pop]

theorem readSize_sub (m : Method) (args : List Val) (kw : Kwargs) :
    List.Sublist ((readSize m args kw).2.map (·.1)) (kw.map (·.1)) := by
  unfold readSize
  split
  · exact List.Sublist.refl _
  · split
    · exact pop_sub _ _
    · exact List.Sublist.refl _

theorem readDtype_sub (m : Method) (args : List Val) (kw : Kwargs) :
    List.Sublist ((readDtype m args kw).2.map (·.1)) (kw.map (·.1)) := by
  unfold readDtype
  split
  · exact List.Sublist.refl _
  · split
    · exact pop_sub _ _
    · exact List.Sublist.refl _

theorem readOut_sub (m : Method) (size : Val) (kw : Kwargs) (out : Option ArrInfo) (size' : Val) (kw' : Kwargs)
    (hr : readOut m size kw = .ok (out, size', kw')) : List.Sublist (kw'.map (·.1)) (kw.map (·.1)) := by
  unfold readOut at hr
  split at hr
  · simp only [Except.ok.injEq, Prod.mk.injEq] at hr
    rw [← hr.2.2]
    exact List.Sublist.refl _
  · simp only [Except.ok.injEq, Prod.mk.injEq] at hr
    rw [← hr.2.2]
    exact pop_sub _ _
  · simp at hr

/-- The positions of the size, the type and the output array. -/
theorem methods_last : ∀ m ∈ methods, m.params[m.nparam]? = some "size" ∧
    (m.hasDtype = true → m.params[m.nparam + 1]? = some "dtype") ∧ (m.hasOut = true → "out" ∈ m.params) ∧
    (m.hasDtype = decide ("dtype" ∈ m.params)) ∧ (m.hasOut = decide ("out" ∈ m.params)) ∧
    ∀ p ∈ ["size", "dtype", "out"], p ∉ m.params.take m.nparam := by decide

theorem mem_take_of_getElem? (l : List String) (i n : Nat) (p : String) (h : l[i]? = some p) (hn : i < n) :
    p ∈ l.take n := List.mem_iff_getElem?.2 ⟨i, by rw [List.getElem?_take_of_lt hn]; exact h⟩

/-- Neither size nor type nor output array are left in the keyword arguments for the threads. -/
theorem rest_names (m : Method) (hm : m ∈ methods) (args : List Val) (kw : Kwargs)
    (hacc : Accepted m.params args kw) (out : Option ArrInfo) (size : Val) (kw1 : Kwargs)
    (hr : readOut m (readSize m args kw).1 (readSize m args kw).2 = .ok (out, size, kw1)) :
    ∀ p ∈ ["size", "dtype", "out"], p ∉ (readDtype m args kw1).2.map (·.1) := by
  obtain ⟨hsz, hdt, -, hdp, hop, -⟩ := methods_last m hm
  have sub1 := readSize_sub m args kw
  have sub2 := readOut_sub m _ _ _ _ _ hr
  have sub3 := readDtype_sub m args kw1
  intro p hp hin
  simp only [List.mem_cons, List.not_mem_nil, or_false] at hp
  rcases hp with rfl | rfl | rfl
  · have h1 := sub2.subset (sub3.subset hin)
    unfold readSize at h1
    split at h1
    · rename_i v hv
      exact (hacc.2.2 _ h1).2 (mem_take_of_getElem? _ _ _ _ hsz (List.getElem?_eq_some_iff.1 hv).1)
    · split at h1
      · exact notMem_pop _ _ h1
      · rename_i hn
        exact notMem_of_get_none _ _ hn h1
  · have hk : "dtype" ∈ kw.map (·.1) := sub1.subset (sub2.subset (sub3.subset hin))
    have hpar := (hacc.2.2 _ hk).1
    have hd : m.hasDtype = true := by rw [hdp]; simpa using hpar
    unfold readDtype at hin
    simp only [hd, if_true] at hin
    split at hin
    · rename_i v hv
      exact (hacc.2.2 _ hk).2 (mem_take_of_getElem? _ _ _ _ (hdt hd) (List.getElem?_eq_some_iff.1 hv).1)
    · split at hin
      · exact notMem_pop _ _ hin
      · rename_i hn
        exact notMem_of_get_none _ _ hn hin
  · have hin1 := sub3.subset hin
    have hk : "out" ∈ kw.map (·.1) := sub1.subset (sub2.subset hin1)
    have hpar := (hacc.2.2 _ hk).1
    have ho : m.hasOut = true := by rw [hop]; simpa using hpar
    unfold readOut at hr
    simp only [ho, if_true] at hr
    split at hr
    · rename_i hn
      simp only [Except.ok.injEq, Prod.mk.injEq] at hr
      rw [← hr.2.2] at hin1
      exact notMem_of_get_none _ _ hn hin1
    · simp only [Except.ok.injEq, Prod.mk.injEq] at hr
      rw [← hr.2.2] at hin1
      exact notMem_pop _ _ hin1
    · simp at hr

/-! ## The property -/

/-- C59. A call with at most the size and the type after the parameters of the distribution, if it goes to the
threads, is made by each thread with the same value of every parameter but size, type and output array. -/
theorem C59_parameters_partial (m : Method) (hm : m ∈ methods) (args : List Val) (kw : Kwargs) (a : List Val)
    (k : Kwargs) (size dtype : Val) (out : Option ArrInfo) (slice : ArrInfo)
    (hargs : args.length ≤ m.nparam + 2) (h : plan m args kw = .ok (.threads a k size dtype out)) (p : String)
    (hp : p ∈ m.params) (h1 : p ≠ "size") (h2 : p ≠ "dtype") (h3 : p ≠ "out") :
    bound m.params a (workerKw m k dtype slice) p = bound m.params args kw p := by
  obtain ⟨kw1, hr, rfl, rfl, rfl, _⟩ := plan_threads m args kw a k size dtype out h
  unfold bound
  have hz : (m.params.zip (args.take m.nparam)).find? (·.1 == p) = (m.params.zip args).find? (·.1 == p) := by
    apply find_zip_take _ (methods_nodup m hm)
    rcases methods_layout m hm p hp h1 h2 h3 with h | h
    · exact Or.inl h
    · refine Or.inr fun hc => h ?_
      exact (List.take_sublist_take_left hargs).subset hc
  rw [hz]
  split
  · rfl
  · unfold workerKw
    rw [get_append, readDtype_get _ _ _ _ h2, readOut_get m _ _ _ _ _ hr p h3, readSize_get _ _ _ _ h1]
    intro x hx
    simp only [List.mem_append] at hx
    rcases hx with hx | hx
    · split at hx
      · simp only [List.mem_singleton] at hx; subst hx; exact fun e => h2 e.symm
      · simp at hx
    · split at hx
      · simp only [List.mem_singleton] at hx; subst hx; exact fun e => h3 e.symm
      · simp only [List.mem_singleton] at hx; subst hx; exact fun e => h1 e.symm

/-- C59. What the threads call is a call that the method of `numpy` accepts, if the original call was: it fills
the part of the thread, or returns as many numbers as that part has, of the type of the array wherever the method
has a type. -/
theorem C59_thread_call (m : Method) (hm : m ∈ methods) (args : List Val) (kw : Kwargs)
    (hacc : Accepted m.params args kw) (a : List Val) (k : Kwargs) (size dtype : Val) (out : Option ArrInfo)
    (h : plan m args kw = .ok (.threads a k size dtype out)) (id n : Nat) (d : DType) :
    Accepted m.params a (workerKw m k dtype ⟨id, [n], d⟩) ∧
    ("dtype" ∈ m.params → bound m.params a (workerKw m k dtype ⟨id, [n], d⟩) "dtype" = some dtype) ∧
    (bound m.params a (workerKw m k dtype ⟨id, [n], d⟩) "out" =
      if "out" ∈ m.params then some (.array ⟨id, [n], d⟩) else none) ∧
    (bound m.params a (workerKw m k dtype ⟨id, [n], d⟩) "size" =
      if "out" ∈ m.params then none else some (.scalar n)) := by
  obtain ⟨kw1, hr, rfl, rfl, rfl, _⟩ := plan_threads m args kw a k size dtype out h
  obtain ⟨hsz, hdt, -, hdp, hop, hlast⟩ := methods_last m hm
  have hrest := rest_names m hm args kw hacc out size kw1 hr
  have hsub : List.Sublist ((readDtype m args kw1).2.map (·.1)) (kw.map (·.1)) :=
    (readDtype_sub m args kw1).trans ((readOut_sub m _ _ _ _ _ hr).trans (readSize_sub m args kw))
  have hpos : ∀ p ∈ ["size", "dtype", "out"],
      ((m.params.zip (args.take m.nparam)).find? (·.1 == p)).map (·.2) = none := by
    intro p hp
    rw [Option.map_eq_none_iff, List.find?_eq_none]
    intro x hx hxp
    obtain ⟨i, hi⟩ := List.mem_iff_getElem?.1 hx
    rw [List.getElem?_zip_eq_some] at hi
    have hlt := (List.getElem?_eq_some_iff.1 hi.2).1
    rw [List.length_take] at hlt
    have hxp' : x.1 = p := by simpa using hxp
    exact hlast p hp (mem_take_of_getElem? _ i _ _ (hxp' ▸ hi.1) (by omega))
  have hb : ∀ p ∈ ["size", "dtype", "out"], ∀ kw', bound m.params (args.take m.nparam) kw' p = Kwargs.get kw' p := by
    intro p hp kw'
    unfold bound
    rw [hpos p hp]
  have hg : ∀ p ∈ ["size", "dtype", "out"], Kwargs.get (readDtype m args kw1).2 p = none :=
    fun p hp => get_none_of_notMem _ _ (hrest p hp)
  have h1 := hg "size" (by simp)
  have h2 := hg "dtype" (by simp)
  have h3 := hg "out" (by simp)
  have r1 := hrest "size" (by simp)
  have r2 := hrest "dtype" (by simp)
  have r3 := hrest "out" (by simp)
  refine ⟨⟨?_, ?_, ?_⟩, ?_, ?_, ?_⟩
  · have := hacc.1
    rw [List.length_take]
    omega
  · have hnd := hsub.nodup hacc.2.1
    unfold workerKw
    rw [List.map_append, List.map_append]
    cases m.hasDtype <;> cases m.hasOut <;>
      simp only [Bool.false_eq_true, if_false, if_true, List.map_nil, List.nil_append, List.map_cons,
        List.cons_append, List.nodup_cons, List.mem_cons, not_or] <;>
      first
        | exact ⟨r1, hnd⟩
        | exact ⟨r3, hnd⟩
        | exact ⟨⟨by decide, r2⟩, r1, hnd⟩
        | exact ⟨⟨by decide, r2⟩, r3, hnd⟩
  · intro p hp
    have hle : m.params.take (args.take m.nparam).length = (m.params.take m.nparam).take args.length := by
      rw [List.take_take, List.length_take, Nat.min_comm]
    unfold workerKw at hp
    rw [List.map_append, List.map_append, List.mem_append, List.mem_append] at hp
    have hspecial : ∀ q ∈ ["size", "dtype", "out"], q ∈ m.params →
        q ∈ m.params ∧ q ∉ m.params.take (args.take m.nparam).length := by
      intro q hq hqm
      refine ⟨hqm, fun hc => hlast q hq ?_⟩
      rw [hle] at hc
      exact List.mem_of_mem_take hc
    rcases hp with (hp | hp) | hp
    · split at hp
      · rename_i hd
        simp only [List.map_cons, List.map_nil, List.mem_singleton] at hp
        subst hp
        exact hspecial _ (by simp) (by simpa [hd] using hdp)
      · simp at hp
    · split at hp
      · rename_i ho
        simp only [List.map_cons, List.map_nil, List.mem_singleton] at hp
        subst hp
        exact hspecial _ (by simp) (by simpa [ho] using hop)
      · simp only [List.map_cons, List.map_nil, List.mem_singleton] at hp
        subst hp
        exact hspecial _ (by simp) (List.mem_of_getElem? hsz)
    · have := hacc.2.2 p (hsub.subset hp)
      refine ⟨this.1, fun hc => this.2 ?_⟩
      refine (List.take_sublist_take_left ?_).subset hc
      rw [List.length_take]
      omega
  · intro hin
    rw [hb _ (by simp)]
    have hd : m.hasDtype = true := by rw [hdp]; simpa using hin
    simp [workerKw, hd, Kwargs.get]
  · rw [hb _ (by simp)]
    unfold workerKw
    rw [List.append_assoc, get_append _ _ _ (by intro x hx; split at hx <;> simp at hx; subst hx; simp)]
    by_cases ho : "out" ∈ m.params
    · have : m.hasOut = true := by rw [hop]; simpa using ho
      simp [this, ho, Kwargs.get]
    · have : m.hasOut = false := by rw [hop]; simpa using ho
      rw [if_neg ho, this, if_neg (by simp), get_append _ _ _ (by intro x hx; simp at hx; subst hx; simp), h3]
  · rw [hb _ (by simp)]
    unfold workerKw
    rw [List.append_assoc, get_append _ _ _ (by intro x hx; split at hx <;> simp at hx; subst hx; simp)]
    by_cases ho : "out" ∈ m.params
    · have : m.hasOut = true := by rw [hop]; simpa using ho
      rw [if_pos ho, this, if_pos rfl, get_append _ _ _ (by intro x hx; simp at hx; subst hx; simp), h1]
    · have : m.hasOut = false := by rw [hop]; simpa using ho
      simp [this, ho, Kwargs.get]

/-- C59. The new array has the type that `numpy` would give it, except for Poisson numbers. -/
theorem C59_dtype_partial (m : Method) (hm : m ∈ [random, integers, uniform, normal, standardNormal, power])
    (args : List Val) (kw : Kwargs) (a : List Val) (k : Kwargs) (size dtype : Val) (out : Option ArrInfo)
    (h : plan m args kw = .ok (.threads a k size dtype out)) :
    dtype = numpyDtype m args kw (m.params.contains "endpoint") := by
  obtain ⟨kw1, hr, -, -, rfl, -⟩ := plan_threads m args kw a k size dtype out h
  have hd1 : kw1.get "dtype" = kw.get "dtype" := by
    rw [readOut_get m _ _ _ _ _ hr "dtype" (by decide), readSize_get _ _ _ _ (by decide)]
  have key : ∀ (pre : List String) (post : List String), pre.length = m.nparam + 1 → "dtype" ∉ pre →
      m.params = pre ++ "dtype" :: post → 
      ((m.params.zip args).find? (·.1 == "dtype")).map (·.2) = args[m.nparam + 1]? := by
    intro pre post hl hpre hpar
    rw [hpar, ← hl]
    clear hl hpar h hr hd1
    induction pre generalizing args with
    | nil =>
      cases args with
      | nil => simp
      | cons x xs => simp
    | cons q qs ih =>
      cases args with
      | nil => simp
      | cons x xs =>
        simp only [List.mem_cons, not_or] at hpre
        have : (q == "dtype") = false := by simpa using fun e => hpre.1 e.symm
        simp only [List.cons_append, List.zip_cons_cons, List.find?_cons, this, List.length_cons,
          List.getElem?_cons_succ]
        exact ih xs hpre.2
  have main : ∀ (pre post : List String), m.hasDtype = true → pre.length = m.nparam + 1 → "dtype" ∉ pre →
      m.params = pre ++ "dtype" :: post →
      m.defdtype = (if m.params.contains "endpoint" then .int64 else .float64) →
      (readDtype m args kw1).1 = numpyDtype m args kw (m.params.contains "endpoint") := by
    intro pre post hh hl hpre hpar hdef
    have hk := key pre post hl hpre hpar
    have hin : "dtype" ∈ m.params := by rw [hpar]; simp
    unfold readDtype numpyDtype bound
    rw [hk, if_pos hin]
    simp only [hh, if_true]
    cases args[m.nparam + 1]? with
    | some v => rfl
    | none =>
      simp only [hd1]
      cases kw.get "dtype" with
      | some v => rfl
      | none => simp only [hdef]
  simp only [List.mem_cons, List.not_mem_nil, or_false] at hm
  rcases hm with rfl | rfl | rfl | rfl | rfl | rfl
  · exact main ["size"] ["out"] rfl rfl (by decide) rfl rfl
  · exact main ["low", "high", "size"] ["endpoint"] rfl rfl (by decide) rfl rfl
  · rfl
  · rfl
  · exact main ["size"] ["out"] rfl rfl (by decide) rfl rfl
  · rfl

/-- C59. An output array given by keyword is the one that is filled, whatever else is given. -/
theorem C59_out_keyword (m : Method) (hm : m ∈ [random, standardNormal]) (args : List Val) (kw : Kwargs)
    (o : ArrInfo) (ho : kw.get "out" = some (.array o)) (a : List Val) (k : Kwargs) (size dtype : Val)
    (out : Option ArrInfo) (h : plan m args kw = .ok (.threads a k size dtype out)) :
    out = some o ∧ size = .tuple o.shape := by
  obtain ⟨kw1, hr, _⟩ := plan_threads m args kw a k size dtype out h
  have hh : m.hasOut = true := by
    simp only [List.mem_cons, List.not_mem_nil, or_false] at hm
    rcases hm with rfl | rfl <;> rfl
  unfold readOut at hr
  rw [readSize_get _ _ _ _ (by decide)] at hr
  simp only [hh, if_true, ho, Except.ok.injEq, Prod.mk.injEq] at hr
  exact ⟨hr.1.symm, hr.2.1.symm⟩

/-- C59. Calls for less than a thousand numbers, without size, or with arrays as parameters, are passed on to
`numpy` unchanged. -/
theorem C59_direct (m : Method) (args : List Val) (kw : Kwargs) (pl : Plan) (h : plan m args kw = .ok pl) :
    pl = .direct args kw ∨ ∃ k size dtype out, pl = .threads (args.take m.nparam) k size dtype out ∧
      1000 ≤ prodSize size ∧ ∀ v ∈ args.take m.nparam, ∃ n, v = .scalar n := by
  match pl with
  | .threads a k size dtype out =>
    obtain ⟨kw1, _, rfl, _, _, h1, h2, _⟩ := plan_threads m args kw a k size dtype out h
    refine Or.inr ⟨k, size, dtype, out, rfl, h1, ?_⟩
    intro v hv
    have := List.all_eq_true.1 h2 v hv
    cases v with
    | scalar n => exact ⟨n, rfl⟩
    | none => simp [Val.isScalar] at this
    | tuple l => simp [Val.isScalar] at this
    | array a => simp [Val.isScalar] at this
    | dtype d => simp [Val.isScalar] at this
  | .direct a k =>
    refine Or.inl ?_
    unfold plan at h
    split at h
    · simp at h
    · simp only [Except.ok.injEq] at h
      unfold decidePlan at h
      split at h
      · exact h.symm
      · split at h
        · exact h.symm
        · simp at h

/-- C59 fails: `integers(0, 10, 2000, int64, True)`. The threads call `integers` without `endpoint`, so 10 is never
returned. -/
theorem C59_endpoint_violated (slice : ArrInfo) :
    Accepted integers.params [.scalar 0, .scalar 10, .scalar 2000, .dtype .int64, .scalar 1] [] ∧
    bound integers.params [.scalar 0, .scalar 10, .scalar 2000, .dtype .int64, .scalar 1] [] "endpoint" =
      some (.scalar 1) ∧
    ∃ a k, plan integers [.scalar 0, .scalar 10, .scalar 2000, .dtype .int64, .scalar 1] [] =
        .ok (.threads a k (.scalar 2000) (.dtype .int64) none) ∧
      bound integers.params a (workerKw integers k (.dtype .int64) slice) "endpoint" = none :=
  ⟨by unfold Accepted; decide, by decide, _, _, rfl, rfl⟩

/-- C59 fails: a thousand or more Poisson numbers are floats, fewer are integers. -/
theorem C59_poisson_violated (lam n : Int) (hn : 1000 ≤ n) :
    plan poisson [.scalar lam, .scalar n] [] =
      .ok (.threads [.scalar lam] [] (.scalar n) (.dtype .float64) none) ∧
    numpyDtype poisson [.scalar lam, .scalar n] [] true = .dtype .int64 := by
  refine ⟨?_, rfl⟩
  have : ¬ n < 1000 := by omega
  simp [plan, poisson, readSize, readOut, readDtype, decidePlan, Val.isScalar, prodSize, this]

/-- C59 fails: `random(2000, float64, out)` does not use `out`. -/
theorem C59_out_position_violated (o : ArrInfo) :
    bound random.params [.scalar 2000, .dtype .float64, .array o] [] "out" = some (.array o) ∧
    plan random [.scalar 2000, .dtype .float64, .array o] [] =
      .ok (.threads [] [] (.scalar 2000) (.dtype .float64) none) := ⟨rfl, rfl⟩

/-- C59 fails: `random(size, out=None)`, the default of `numpy`, raises an `AttributeError`. -/
theorem C59_out_none_violated (size : Val) :
    plan random [size] [("out", .none)] = .error .attributeError := by
  rfl

/-- C59 fails: a size that contradicts `out` is ignored; `numpy` raises. -/
theorem C59_size_violated (n : Int) (id : Nat) :
    plan random [.scalar n] [("out", .array ⟨id, [2000], .float64⟩)] =
      .ok (.threads [] [] (.tuple [2000]) (.dtype .float64) (some ⟨id, [2000], .float64⟩)) := by
  rfl

/-- A call that the theorems above apply to. -/
example : plan integers [.scalar 0] [("high", .scalar 10), ("endpoint", .scalar 1), ("size", .tuple [50, 40])] =
    .ok (.threads [.scalar 0] [("high", .scalar 10), ("endpoint", .scalar 1)] (.tuple [50, 40])
      (.dtype .int64) none) := by rfl

/-- Such a call is accepted. -/
example : Accepted integers.params [.scalar 0] [("high", .scalar 10), ("endpoint", .scalar 1),
    ("size", .tuple [50, 40])] := by unfold Accepted; decide

end Verif.Rng
