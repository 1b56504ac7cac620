import Verif.Handle.Model

/-! # C92: opening and closing containers on disk -/
namespace Verif.Handle

variable {α : Type}

/-! ## Specification -/

/-- The worlds have the same open files, except that `h` is closed. -/
def ClosesOnly (w w' : World α) (h : Nat) : Prop :=
  w'.opened h = none ∧ (∀ k, k ≠ h → w'.opened k = w.opened k) ∧ w'.files = w.files

/-- The handle was opened on the way from `w` to `w'`, and no other. -/
def OpensOnly (w w' : World α) (h : Nat) (name : String) : Prop :=
  h = w.next ∧ w'.opened h = some name ∧ ∀ k, k ≠ h → w'.opened k = w.opened k

/-! ## Opening -/

theorem open_opens (w w' : World α) (blank : α) (name : String) (mode : Mode) (h : Nat)
    (ho : w.open blank name mode = .ok (h, w')) : OpensOnly w w' h name := by
  unfold World.open at ho
  cases hf : w.files name <;> rw [hf] at ho <;> cases mode <;> simp at ho <;>
    (obtain ⟨rfl, rfl⟩ := ho; exact ⟨rfl, by simp, fun k hk => by simp [hk]⟩)

/-- What opening does to the files: other files stay; the file has its contents, unless it is new or the mode is
`w`. -/
theorem open_files (w w' : World α) (blank : α) (name : String) (mode : Mode) (h : Nat)
    (ho : w.open blank name mode = .ok (h, w')) :
    (∀ n, n ≠ name → w'.files n = w.files n) ∧
    w'.files name = some (if mode = .w then blank else (w.files name).getD blank) := by
  unfold World.open at ho
  cases hf : w.files name <;> rw [hf] at ho <;> cases mode <;> simp at ho <;>
    (obtain ⟨rfl, rfl⟩ := ho; exact ⟨fun n hn => by simp [hn], by simp⟩)

/-- C92. The constructor with the name of an HDF5 file and no format opens the file, and `close` closes it and
nothing else. -/
theorem C92_init_close_partial (w w' : World α) (blank : α) (guess : String → Fmt) (world comm : Option Nat)
    (name : String) (hg : guess name = .hdf5) (c : Container)
    (hi : init w blank guess world (.name name) false comm none = (.ok c, w')) :
    ∃ h w'', OpensOnly w w' h name ∧ closeFile w' c = .ok w'' ∧ ClosesOnly w' w'' h := by
  simp only [init, wrapArg, getFile, Bool.false_and, Bool.false_eq_true, if_false] at hi
  cases ho : w.open blank name .a with
  | error e => rw [ho] at hi; simp at hi
  | ok v =>
    obtain ⟨h, w1⟩ := v
    rw [ho] at hi
    simp [rootOf, hg] at hi
    obtain ⟨rfl, rfl⟩ := hi
    refine ⟨h, w1.close h, open_opens w w1 blank name .a h ho, ?_, ?_⟩
    · simp [closeFile, Container.ondisk]
    · exact ⟨by simp [World.close], fun k hk => by simp [World.close, hk], rfl⟩

/-- C92 fails when the format HDF5 is given: `close` leaves the file open. -/
theorem C92_hdf5_violated (w w' : World α) (blank : α) (guess : String → Fmt) (world comm : Option Nat) (name : String)
    (c : Container) (hi : init w blank guess world (.name name) false comm (some .hdf5) = (.ok c, w')) :
    ∃ h, OpensOnly w w' h name ∧ c.root = .h5file h ∧ closeFile w' c = .ok w' := by
  simp only [init, wrapArg, getFile, Bool.false_and, Bool.false_eq_true, if_false] at hi
  cases ho : w.open blank name .a with
  | error e => rw [ho] at hi; simp at hi
  | ok v =>
    obtain ⟨h, w1⟩ := v
    rw [ho] at hi
    simp [rootOf] at hi
    obtain ⟨rfl, rfl⟩ := hi
    exact ⟨h, open_opens w w1 blank name .a h ho, rfl, by simp [closeFile]⟩

/-- C92 fails for zarr files, whether the format is given or guessed: `close` raises an `AttributeError`. -/
theorem C92_zarr_violated (w w' : World α) (blank : α) (guess : String → Fmt) (world comm : Option Nat) (name : String)
    (format : Option Fmt) (hf : format = some .zarr ∨ (format = none ∧ guess name = .zarr)) (c : Container)
    (hi : init w blank guess world (.name name) false comm format = (.ok c, w')) :
    closeFile w' c = .error .attributeError := by
  simp only [init, wrapArg, getFile, Bool.false_and, Bool.false_eq_true, if_false] at hi
  cases ho : w.open blank name .a with
  | error e => rw [ho] at hi; simp at hi
  | ok v =>
    obtain ⟨h, w1⟩ := v
    rw [ho] at hi
    rcases hf with rfl | ⟨rfl, hg⟩
    · simp [rootOf] at hi
      obtain ⟨rfl, rfl⟩ := hi
      simp [closeFile, Container.ondisk]
    · simp [rootOf, hg] at hi
      obtain ⟨rfl, rfl⟩ := hi
      simp [closeFile, Container.ondisk]

/-- A world with the one file `a.h5`, with contents 7. -/
def oneFile : World Nat := ⟨fun n => if n = "a.h5" then some 7 else none, fun _ => none, 0⟩

/-- All names are names of HDF5 files. -/
example : ∃ c w', init oneFile 0 (fun _ => .hdf5) none (.name "a.h5") false none none = (.ok c, w') ∧
    c.shows w' = some 7 := by
  refine ⟨_, _, rfl, ?_⟩
  decide +kernel

/-- C92. `from_file` with `ondisk=True` and a file name opens the file; `close` then closes an HDF5 file and nothing
else, and has nothing to do for a zarr file. -/
theorem C92_from_file (w w' : World α) (blank : α) (guess : String → Fmt) (name : String) (distributed : Bool)
    (mode : Option Mode) (format : Option Fmt) (c : Container)
    (hi : fromFileDisk w blank guess (.inr name) distributed mode format = .ok (c, w')) :
    ∃ h, OpensOnly w w' h name ∧
      if format.getD (guess name) = .hdf5 then ∃ w'', closeFile w' c = .ok w'' ∧ ClosesOnly w' w'' h
      else closeFile w' c = .ok w' := by
  simp only [fromFileDisk] at hi
  cases ho : w.open blank name (mode.getD .r) with
  | error e => rw [ho] at hi; simp at hi
  | ok v =>
    obtain ⟨h, w1⟩ := v
    rw [ho] at hi
    simp at hi
    obtain ⟨rfl, rfl⟩ := hi
    refine ⟨h, open_opens w w1 blank name _ h ho, ?_⟩
    cases hf : format.getD (guess name) with
    | hdf5 =>
      simp [rootOf, closeFile, Container.ondisk]
      exact ⟨by simp [World.close], fun k hk => by simp [World.close, hk], rfl⟩
    | zarr => simp [closeFile]

example : ∃ c w', fromFileDisk oneFile 0 (fun _ => .hdf5) (.inr "a.h5") false none none = .ok (c, w') ∧
    c.toclose = true := by
  exact ⟨_, _, rfl, rfl⟩

/-- C92. Only modes of writing make a file: without a mode, and with the modes of reading, a file that does not exist
is an error; and no mode but `w` changes what a file has. -/
theorem C92_from_file_modes (w : World α) (blank : α) (guess : String → Fmt) (name : String) (distributed : Bool)
    (mode : Option Mode) (format : Option Fmt) :
    (w.files name = none → mode = none ∨ mode = some .r ∨ mode = some .rplus →
      fromFileDisk w blank guess (.inr name) distributed mode format = .error .osError) ∧
    (w.files name ≠ none → mode = some .x →
      fromFileDisk w blank guess (.inr name) distributed mode format = .error .osError) ∧
    (∀ c w', fromFileDisk w blank guess (.inr name) distributed mode format = .ok (c, w') →
      (∀ n, n ≠ name → w'.files n = w.files n) ∧
      (∀ x, w.files name = some x → mode ≠ some .w → w'.files name = some x ∧ c.shows w' = some x) ∧
      (w.files name = none ∨ mode = some .w → w'.files name = some blank ∧ c.shows w' = some blank)) := by
  refine ⟨?_, ?_, ?_⟩
  · rintro hn (rfl | rfl | rfl) <;> simp [fromFileDisk, World.open, hn]
  · rintro hn rfl
    cases hf : w.files name with
    | none => exact absurd hf hn
    | some x => simp [fromFileDisk, World.open, hf]
  · intro c w' hi
    simp only [fromFileDisk] at hi
    cases ho : w.open blank name (mode.getD .r) with
    | error e => rw [ho] at hi; simp at hi
    | ok v =>
      obtain ⟨h, w1⟩ := v
      rw [ho] at hi
      simp at hi
      obtain ⟨rfl, rfl⟩ := hi
      obtain ⟨f1, f2⟩ := open_files w w1 blank name _ h ho
      have h1 := (open_opens w w1 blank name _ h ho).2.1
      have hs : ∀ x, w1.files name = some x →
          Container.shows w1 ⟨rootOf (format.getD (guess name)) h, decide (format.getD (guess name) = .hdf5),
            if distributed = true ∧ format.getD (guess name) = .zarr then some (name ++ ".sync") else none⟩ =
            some x := by
        intro x hx
        cases hf : format.getD (guess name) <;> simp [Container.shows, rootOf, h1, hx]
      refine ⟨f1, ?_, ?_⟩
      · intro x hx hm
        have hm' : mode.getD .r ≠ .w := by
          cases mode with
          | none => simp
          | some m => simpa using hm
        rw [if_neg hm', hx] at f2
        exact ⟨f2, hs x f2⟩
      · intro hc
        have f3 : w1.files name = some blank := by
          rcases hc with hn | rfl
          · rw [hn] at f2
            simpa using f2
          · simpa using f2
        exact ⟨f3, hs _ f3⟩

example : fromFileDisk oneFile 0 (fun _ => .hdf5) (.inr "b.h5") false none none = .error .osError := rfl

/-- C92. Of two files that are opened one after the other, closing one leaves the other open with its contents. -/
theorem C92_two (w w1 w2 w3 : World α) (blank : α) (guess : String → Fmt) (n1 n2 : String) (d1 d2 : Bool)
    (m1 m2 : Option Mode) (f1 f2 : Option Fmt) (c1 c2 : Container)
    (h1 : fromFileDisk w blank guess (.inr n1) d1 m1 f1 = .ok (c1, w1))
    (h2 : fromFileDisk w1 blank guess (.inr n2) d2 m2 f2 = .ok (c2, w2)) :
    (closeFile w2 c1 = .ok w3 → c2.shows w3 = c2.shows w2) ∧
    (closeFile w2 c2 = .ok w3 → c1.shows w3 = c1.shows w2) := by
  have hnext : ∀ (u u' : World α) (n : String) (m : Mode) (h : Nat), u.open blank n m = .ok (h, u') →
      h = u.next ∧ u'.next = u.next + 1 := by
    intro u u' n m h ho
    unfold World.open at ho
    cases hf : u.files n <;> rw [hf] at ho <;> cases m <;> simp at ho <;>
      (obtain ⟨rfl, rfl⟩ := ho; exact ⟨rfl, rfl⟩)
  have hroot : ∀ (u u' : World α) (n : String) (d : Bool) (m : Option Mode) (f : Option Fmt) (c : Container),
      fromFileDisk u blank guess (.inr n) d m f = .ok (c, u') →
      (c.root = .h5file u.next ∨ c.root = .zgroup u.next) ∧ u'.next = u.next + 1 := by
    intro u u' n d m f c hi
    simp only [fromFileDisk] at hi
    cases ho : u.open blank n (m.getD .r) with
    | error e => rw [ho] at hi; simp at hi
    | ok v =>
      obtain ⟨h, u1⟩ := v
      rw [ho] at hi
      simp at hi
      obtain ⟨rfl, rfl⟩ := hi
      obtain ⟨rfl, hn⟩ := hnext u u1 n _ h ho
      refine ⟨?_, hn⟩
      cases hf : f.getD (guess n) <;> simp [rootOf]
  obtain ⟨r1, hn1⟩ := hroot w w1 n1 d1 m1 f1 c1 h1
  obtain ⟨r2, -⟩ := hroot w1 w2 n2 d2 m2 f2 c2 h2
  have hcl : ∀ (c c' : Container) (k k' : Nat), (c.root = .h5file k ∨ c.root = .zgroup k) →
      (c'.root = .h5file k' ∨ c'.root = .zgroup k') → k ≠ k' → closeFile w2 c = .ok w3 →
      c'.shows w3 = c'.shows w2 := by
    intro c c' k k' hc hc' hk h
    unfold closeFile at h
    split at h
    · rcases hc with hc | hc <;> rw [hc] at h <;> simp at h
      subst h
      rcases hc' with hc' | hc' <;>
        simp [Container.shows, hc', World.close, if_neg (Ne.symm hk)]
    · simp at h
      rw [h]
  exact ⟨fun h => hcl c1 c2 _ _ r1 r2 (by omega) h, fun h => hcl c2 c1 _ _ r2 r1 (by omega) h⟩

example : ∃ c1 c2 w1 w2 w3, fromFileDisk oneFile 0 (fun _ => .hdf5) (.inr "a.h5") false none none = .ok (c1, w1) ∧
    fromFileDisk w1 0 (fun _ => .hdf5) (.inr "a.h5") false none none = .ok (c2, w2) ∧
    closeFile w2 c1 = .ok w3 ∧ c1.shows w3 = none ∧ c2.shows w3 = some 7 :=
  ⟨_, _, _, _, _, rfl, rfl, rfl, by decide +kernel, by decide +kernel⟩

/-- C92. What the caller had opened is left open: a container around a group or another container closes nothing. -/
theorem C92_given (w w' : World α) (blank : α) (guess : String → Fmt) (world comm : Option Nat) (distributed : Bool)
    (format : Option Fmt) (arg : Arg) (harg : ∀ s, arg ≠ .name s) (c : Container)
    (hi : init w blank guess world arg distributed comm format = (.ok c, w')) :
    w' = w ∧ closeFile w' c = .ok w' := by
  have key : ∀ r t w1, wrapArg w blank guess arg (distributed && (commOf world comm).isSome)
      (commOf world comm) format = .ok (r, t, w1) → t = false ∧ w1 = w := by
    intro r t w1 h
    cases arg with
    | nothing => simp [wrapArg] at h; exact ⟨h.2.1.symm ▸ rfl, h.2.2.symm⟩
    | container c => simp [wrapArg] at h; exact ⟨h.2.1.symm ▸ rfl, h.2.2.symm⟩
    | group g => simp [wrapArg, getFile] at h; exact ⟨h.2.1.symm ▸ rfl, h.2.2.symm⟩
    | name s => exact absurd rfl (harg s)
  unfold init at hi
  generalize hw : wrapArg w blank guess arg _ _ format = v at hi
  cases v with
  | error e => simp at hi
  | ok v =>
    obtain ⟨r, t, w1⟩ := v
    obtain ⟨rfl, rfl⟩ := key r t w1 hw
    simp only at hi
    split at hi
    · split at hi
      · simp at hi
        obtain ⟨rfl, rfl⟩ := hi
        exact ⟨rfl, by simp [closeFile]⟩
      · simp at hi
    · simp at hi
      obtain ⟨rfl, rfl⟩ := hi
      exact ⟨rfl, by simp [closeFile]⟩

/-- C92. The same for `from_file`. -/
theorem C92_from_file_given (w : World α) (blank : α) (guess : String → Fmt) (r : Root) (distributed : Bool)
    (mode : Option Mode) (format : Option Fmt) :
    ∃ c, fromFileDisk w blank guess (.inl r) distributed mode format = .ok (c, w) ∧ c.root = r ∧
      closeFile w c = .ok w :=
  ⟨⟨r, false, none⟩, rfl, rfl, by simp [closeFile]⟩

/-- C92. Closing twice is closing once. -/
theorem C92_twice (w w' : World α) (c : Container) (h : closeFile w c = .ok w') : closeFile w' c = .ok w' := by
  unfold closeFile at h ⊢
  split at h
  · rename_i hc
    rw [if_pos hc]
    cases hr : c.root with
    | mem d k => rfl
    | h5group k => rfl
    | zgroup k => rw [hr] at h; simp at h
    | h5file k =>
      rw [hr] at h
      simp at h
      subst h
      simp [World.close]
      funext j
      split <;> rfl
  · rename_i hc
    rw [if_neg hc]

example : ∃ c w' w'', fromFileDisk oneFile 0 (fun _ => .hdf5) (.inr "a.h5") false none none = .ok (c, w') ∧
    closeFile w' c = .ok w'' ∧ w'.opened 0 = some "a.h5" ∧ w''.opened 0 = none :=
  ⟨_, _, _, rfl, rfl, rfl, rfl⟩

/-! ## Distributed containers -/

/-- C92. A distributed container is made around nothing, or around something in memory that is distributed over the
same processes. Everything else is refused. Without a communicator the container is made, but not distributed. -/
theorem C92_distributed (w : World α) (blank : α) (guess : String → Fmt) (world comm : Option Nat) (arg : Arg)
    (format : Option Fmt) (k : Nat) (hk' : comm = some k ∨ (comm = none ∧ world = some k)) (c : Container)
    (w' : World α) :
    init w blank guess world arg true comm format = (.ok c, w') ↔
      w' = w ∧ c = ⟨.mem true (some k), false, none⟩ ∧
        match arg with
        | .nothing => True
        | .container d => d.root = .mem true (some k)
        | .group r => r = .mem true (some k)
        | .name _ => False := by
  have hk : commOf world comm = some k := by
    rcases hk' with rfl | ⟨rfl, rfl⟩ <;> rfl
  unfold init
  simp only [hk, Option.isSome_some, Bool.and_true]
  have hchk : ∀ r, checkDistributed r (some k) = true ↔ r = .mem true (some k) := by
    intro r
    cases r <;> simp [checkDistributed]
    intro _
    exact eq_comm
  cases arg with
  | nothing =>
    simp [wrapArg, (hchk _).2]
    constructor
    · rintro ⟨rfl, rfl⟩; exact ⟨rfl, rfl⟩
    · rintro ⟨rfl, rfl⟩; exact ⟨rfl, rfl⟩
  | container d =>
    simp only [wrapArg, if_true]
    by_cases h : d.root = .mem true (some k)
    · rw [if_pos ((hchk _).2 h), h]
      simp
      constructor
      · rintro ⟨rfl, rfl⟩; exact ⟨rfl, rfl⟩
      · rintro ⟨rfl, rfl⟩; exact ⟨rfl, rfl⟩
    · rw [if_neg (fun hc => h ((hchk _).1 hc))]
      simp [h]
  | group r =>
    simp only [wrapArg, getFile, if_true]
    by_cases h : r = .mem true (some k)
    · subst h
      rw [if_pos ((hchk _).2 rfl)]
      simp
      constructor
      · rintro ⟨rfl, rfl⟩; exact ⟨rfl, rfl⟩
      · rintro ⟨rfl, rfl⟩; exact ⟨rfl, rfl⟩
    · rw [if_neg (fun hc => h ((hchk _).1 hc))]
      simp [h]
  | name s =>
    simp only [wrapArg, getFile]
    cases ho : w.open blank s .a with
    | error e => simp
    | ok v =>
      obtain ⟨h, w1⟩ := v
      have : checkDistributed (rootOf (format.getD (guess s)) h) (some k) = false := by
        cases format.getD (guess s) <;> rfl
      simp [this]

/-- C92. The processes of a distributed container are those given, or else all. -/
theorem C92_comm (w w' : World α) (blank : α) (guess : String → Fmt) (world comm : Option Nat) (arg : Arg)
    (format : Option Fmt) (k : Nat) (hk : comm = some k ∨ (comm = none ∧ world = some k)) (c : Container)
    (hi : init w blank guess world arg true comm format = (.ok c, w')) : c.comm = some k := by
  rw [((C92_distributed w blank guess world comm arg format k hk c w').1 hi).2.1]
  rfl

example : init oneFile 0 (fun _ => .hdf5) (some 3) .nothing true (some 4) none =
    (.ok ⟨.mem true (some 4), false, none⟩, oneFile) := rfl

theorem C92_no_comm (w : World α) (blank : α) (guess : String → Fmt) (arg : Arg) (format : Option Fmt) :
    init w blank guess none arg true none format = init w blank guess none arg false none format := rfl

/-- C92 fails: a distributed container around a file name is refused, but the file has been made. -/
theorem C92_refused_violated (w : World α) (blank : α) (guess : String → Fmt) (k : Nat) (name : String)
    (format : Option Fmt) (hn : w.files name = none) :
    ∃ w', init w blank guess (some k) (.name name) true none format = (.error .valueError, w') ∧
      w'.files name = some blank := by
  simp only [init, commOf, wrapArg, getFile, World.open, hn, Option.isSome_some, Bool.and_true]
  have : ∀ h, checkDistributed (rootOf (format.getD (guess name)) h) (some k) = false := by
    intro h
    cases format.getD (guess name) <;> rfl
  simp only [this, if_true, Bool.false_eq_true, if_false]
  exact ⟨_, rfl, by simp⟩

example : oneFile.files "b.h5" = none := by decide

/-! ## The lock directory -/

/-- C92. The lock directory is made for zarr files opened as distributed, and for nothing else. -/
theorem C92_lock_made (w w' : World α) (blank : α) (guess : String → Fmt) (name : String) (distributed : Bool)
    (mode : Option Mode) (format : Option Fmt) (c : Container)
    (hi : fromFileDisk w blank guess (.inr name) distributed mode format = .ok (c, w')) :
    c.lock = if distributed = true ∧ format.getD (guess name) = .zarr then some (name ++ ".sync") else none := by
  simp only [fromFileDisk] at hi
  cases ho : w.open blank name (mode.getD .r) with
  | error e => rw [ho] at hi; simp at hi
  | ok v =>
    obtain ⟨h, w1⟩ := v
    rw [ho] at hi
    simp at hi
    obtain ⟨rfl, rfl⟩ := hi
    cases distributed <;> cases format.getD (guess name) <;> rfl

/-- C92. One process: the lock directory is there until the process closes its container, and gone afterwards. -/
theorem C92_lock_partial (w w' : World α) (blank : α) (guess : String → Fmt) (name : String) (mode : Option Mode)
    (format : Option Fmt) (hf : format.getD (guess name) = .zarr) (c : Container)
    (hi : fromFileDisk w blank guess (.inr name) true mode format = .ok (c, w')) (i : Nat) :
    (Shared.mk true [i]).using_ = [i] ∧ ((Shared.mk true [i]).close c i).lock = false ∧
      ((Shared.mk true [i]).close c i).using_ = [] := by
  have hl := C92_lock_made w w' blank guess name true mode format c hi
  rw [if_pos ⟨rfl, hf⟩] at hl
  simp only [fromFileDisk] at hi
  cases ho : w.open blank name (mode.getD .r) with
  | error e => rw [ho] at hi; simp at hi
  | ok v =>
    obtain ⟨h, w1⟩ := v
    rw [ho] at hi
    simp at hi
    obtain ⟨rfl, rfl⟩ := hi
    refine ⟨rfl, ?_, ?_⟩
    · simp [Shared.close, removesLock, Container.comm, rootOf, hf]
    · simp [Shared.close]

/-- C92 fails for several processes: the first one that closes its container removes the lock directory, though the
others still use the file. -/
theorem C92_lock_violated (w w' : World α) (blank : α) (guess : String → Fmt) (name : String) (mode : Option Mode)
    (format : Option Fmt) (hf : format.getD (guess name) = .zarr) (c : Container)
    (hi : fromFileDisk w blank guess (.inr name) true mode format = .ok (c, w')) (i : Nat) (procs : List Nat) (j : Nat)
    (hj : j ∈ procs) (hij : j ≠ i) :
    ((Shared.mk true procs).close c i).lock = false ∧ j ∈ ((Shared.mk true procs).close c i).using_ := by
  refine ⟨?_, by simp [Shared.close, hj, hij]⟩
  have := (C92_lock_partial w w' blank guess name mode format hf c hi i).2.1
  simpa [Shared.close] using this

example : ∃ c w', fromFileDisk oneFile 0 (fun _ => .zarr) (.inr "a.h5") true none none = .ok (c, w') ∧
    c.lock = some "a.h5.sync" := by
  exact ⟨_, _, rfl, by decide +kernel⟩

/-! ## Between memory and disk -/

/-- C92. In memory: the container itself. An open HDF5 file: its contents. -/
theorem C92_to_memory_partial (w w' : World α) (blank : α) (guess : String → Fmt) (name : String) (mode : Option Mode)
    (format : Option Fmt) (hf : format.getD (guess name) = .hdf5) (c : Container)
    (hi : fromFileDisk w blank guess (.inr name) false mode format = .ok (c, w')) :
    ∃ x, w'.files name = some x ∧ c.shows w' = some x ∧ toMemory w' c = .ok (.loaded x) := by
  simp only [fromFileDisk] at hi
  cases ho : w.open blank name (mode.getD .r) with
  | error e => rw [ho] at hi; simp at hi
  | ok v =>
    obtain ⟨h, w1⟩ := v
    rw [ho] at hi
    simp at hi
    obtain ⟨rfl, rfl⟩ := hi
    have h1 := (open_opens w w1 blank name _ h ho).2.1
    have h2 := (open_files w w1 blank name _ h ho).2
    exact ⟨_, h2, by simp [Container.shows, rootOf, hf, h1, h2], by simp [toMemory, rootOf, hf, h1, h2]⟩

theorem C92_in_memory (w : World α) (c : Container) (d : Bool) (k : Option Nat) (h : c.root = .mem d k) :
    toMemory w c = .ok .same ∧ flush c = .ok () ∧ closeFile w c = .ok w := by
  simp [toMemory, flush, closeFile, Container.ondisk, h]

/-- C92 fails for zarr files and for groups of HDF5 files: they cannot be loaded into memory; and zarr files cannot be
flushed. -/
theorem C92_to_memory_violated (w : World α) (c : Container) (h : Nat) :
    ((c.root = .zgroup h ∨ c.root = .h5group h) → toMemory w c = .error .attributeError) ∧
    (c.root = .zgroup h → flush c = .error .attributeError) := by
  constructor
  · rintro (hc | hc) <;> simp [toMemory, hc]
  · intro hc
    simp [flush, Container.ondisk, hc]

/-- C92. `to_disk` without a mode, or with a mode of reading or appending: the file and the container that is returned
have the data, other files stay as they are, and there is no lock directory. -/
theorem C92_to_disk_partial (w : World α) (blank : α) (guess : String → Fmt) (x : α) (name : String) (format : Fmt)
    (mode : Option Mode) (hm : mode = none ∨ mode = some .r ∨ mode = some .rplus ∨ mode = some .a) :
    ∃ c w', toDisk w blank guess false x name format mode = .ok (c, w') ∧ c.shows w' = some x ∧
      w'.files name = some x ∧ (∀ n, n ≠ name → w'.files n = w.files n) ∧ c.lock = none := by
  rcases hm with rfl | rfl | rfl | rfl <;>
    (simp only [toDisk, fromFileDisk, World.open, if_true, Option.getD_none, Option.getD_some, Bool.false_eq_true, if_false]
     refine ⟨_, _, rfl, ?_, by simp, fun n hn => by simp [hn], by simp⟩
     cases format <;> simp [Container.shows, rootOf])

/-- C92 fails for the mode `w`: the file is emptied after it has been written, so the data are not in the file and not
in the container that is returned. -/
theorem C92_to_disk_violated (w : World α) (blank : α) (guess : String → Fmt) (x : α) (name : String) (format : Fmt) :
    ∃ c w', toDisk w blank guess false x name format (some .w) = .ok (c, w') ∧ c.shows w' = some blank ∧
      w'.files name = some blank := by
  simp only [toDisk, fromFileDisk, World.open, if_true, Option.getD_some, Bool.false_eq_true, if_false]
  refine ⟨_, _, rfl, ?_, by simp⟩
  cases format <;> simp [Container.shows, rootOf]

/-- C92 fails for the mode for new files only: the file is written, then the call raises since it exists. -/
theorem C92_to_disk_new_violated (w : World α) (blank : α) (guess : String → Fmt) (x : α) (name : String)
    (format : Fmt) : toDisk w blank guess false x name format (some .x) = .error .osError := by
  simp [toDisk, fromFileDisk, World.open]

/-- C92. Distributed data are refused. -/
theorem C92_to_disk_refused (w : World α) (blank : α) (guess : String → Fmt) (x : α) (name : String) (format : Fmt)
    (mode : Option Mode) : toDisk w blank guess true x name format mode = .error .notImplemented := rfl

example : ∃ c w', toDisk oneFile 0 (fun _ => .hdf5) false 5 "b.h5" .hdf5 none = .ok (c, w') ∧ c.shows w' = some 5 ∧
    w'.files "a.h5" = some 7 := by
  refine ⟨_, _, rfl, ?_, ?_⟩ <;> decide +kernel

end Verif.Handle
