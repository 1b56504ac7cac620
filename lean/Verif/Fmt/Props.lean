import Verif.Fmt.Lemmas

/-!
# C74: file formats and compression
-/
namespace Verif.Fmt

variable {κ : Type}

/-- **C74** (spellings). With bitshuffle installed, all spellings of the filter, the codec LZ4 and the size of a block mean
the same: in HDF5 the number of the filter with the size and the number of the codec, in Zarr the codec by its name with
bits shuffled and the same size. -/
theorem C74_spellings (e : Env) (he : e.enabled = true) (c b d : Val) (n : Int) (hc : Shuffles c) (hb : Block b n) (hd : Lz4 d) :
    hdf5 (κ := κ) e c (.seq [b, d]) none = .ok (some (.num 32008, .seq [.num n, .num 2])) ∧
    zarr (κ := κ) e c (.seq [b, d]) none = .ok (.blosc (.str "lz4") n) := by
  constructor
  · rw [hdf5_shuffle e he c hc]
    rcases hb with rfl | ⟨rfl, rfl⟩ <;> rcases hd with rfl | rfl | rfl <;> rfl
  · rw [zarr_shuffle e he c hc]
    rcases hb with rfl | ⟨rfl, rfl⟩ <;> rcases hd with rfl | rfl | rfl <;> rfl

example : Shuffles (.str "bitshuffle") ∧ Block .none 0 ∧ Lz4 (.str "lz4") := ⟨.inl rfl, .inr ⟨rfl, rfl⟩, .inr (.inr rfl)⟩

/-- **C74** (copies). The settings that a copy in memory gets mean in either format what those of the original do; and a copy of
the copy has the same. -/
theorem C74_copies (e : Env) (c c' : Val) (o o' : Opts) (h : inMemory e c o = .ok (c', o')) :
    inMemory e c' o' = .ok (c', o') ∧ hdf5 (κ := κ) e c' o' none = hdf5 (κ := κ) e c o none ∧
      zarr (κ := κ) e c' o' none = zarr (κ := κ) e c o none := by
  by_cases hs : e.enabled = true ∧ Shuffles c
  · obtain ⟨he, hc⟩ := hs
    have ho : ∃ b d, o = .seq [b, d] := by
      unfold inMemory hdf5 at h
      rw [he, (isShuffle_iff c).2 hc] at h
      simp only [Option.isSome_none, Bool.false_eq_true, if_false, Bool.true_eq_false, and_false, Bool.and_self, if_true] at h
      by_cases hn : o = .none
      · simp [hn] at h
      · rw [if_neg hn] at h
        cases hu : unpack o with
        | error x => rw [hu] at h; simp at h
        | ok p => exact ⟨p.1, p.2, (unpack_ok o p.1 p.2).1 hu⟩
    obtain ⟨b, d, rfl⟩ := ho
    unfold inMemory at h
    rw [hdf5_shuffle e he c hc] at h
    simp only [Except.ok.injEq, Prod.mk.injEq] at h
    obtain ⟨rfl, rfl⟩ := h
    have hc' : Shuffles (.num 32008) := .inr (.inl rfl)
    have hh : ∀ (ν : Type), hdf5 (κ := ν) e (.num 32008)
        (.seq [if b = .none then .num 0 else b, if d = .str "2" ∨ d = .str "lz4" then .num 2 else d]) none = hdf5 (κ := ν) e c (.seq [b, d]) none := by
      intro ν
      rw [hdf5_shuffle e he c hc, hdf5_shuffle e he _ hc']
      have h1 : (if (if b = Val.none then Val.num 0 else b) = .none then Val.num 0 else (if b = .none then .num 0 else b)) =
          if b = .none then .num 0 else b := by
        split <;> simp_all
      have h2 : (if (if d = Val.str "2" ∨ d = .str "lz4" then Val.num 2 else d) = .str "2" ∨
            (if d = Val.str "2" ∨ d = .str "lz4" then Val.num 2 else d) = .str "lz4" then Val.num 2
          else (if d = .str "2" ∨ d = .str "lz4" then .num 2 else d)) = if d = .str "2" ∨ d = .str "lz4" then .num 2 else d := by
        by_cases h : d = .str "2" ∨ d = .str "lz4"
        · simp [h]
        · simp only [if_neg h]
      rw [h1, h2]
    refine ⟨?_, hh κ, ?_⟩
    · unfold inMemory
      rw [hh, hdf5_shuffle e he c hc]
    · rw [zarr_shuffle e he c hc, zarr_shuffle e he _ hc']
      simp only [unpack]
      have h1 : (if (if b = Val.none then Val.num 0 else b) = .none then Val.num 0 else (if b = .none then .num 0 else b)) =
          if b = .none then .num 0 else b := by
        split <;> simp_all
      have h2 : (if (if d = Val.str "2" ∨ d = .str "lz4" then Val.num 2 else d) = .num 2 ∨
            (if d = Val.str "2" ∨ d = .str "lz4" then Val.num 2 else d) = .str "2" then Val.str "lz4"
          else (if d = .str "2" ∨ d = .str "lz4" then .num 2 else d)) = if d = .num 2 ∨ d = .str "2" then .str "lz4" else d := by
        by_cases h : d = .str "2"
        · simp [h]
        · by_cases h' : d = .str "lz4"
          · simp [h']
          · simp [h, h']
      rw [h1, h2]
  · by_cases hr : c = .str "bitshuffle" ∧ e.enabled = false
    · unfold inMemory hdf5 at h
      simp [hr.1, hr.2] at h
    · unfold inMemory at h
      rw [hdf5_plain e c o hs hr] at h
      by_cases hc : c = .none
      · subst hc
        simp only [if_true, Except.ok.injEq, Prod.mk.injEq] at h
        obtain ⟨rfl, rfl⟩ := h
        have hh : ∀ ν o, hdf5 (κ := ν) e .none o none = .ok none := fun ν o => by
          rw [hdf5_plain e .none o hs hr]; rfl
        refine ⟨?_, ?_, ?_⟩
        · unfold inMemory
          rw [hh]
        · rw [hh, hh]
        · rfl
      · rw [if_neg hc] at h
        simp only [Except.ok.injEq, Prod.mk.injEq] at h
        obtain ⟨rfl, rfl⟩ := h
        refine ⟨?_, rfl, rfl⟩
        unfold inMemory
        rw [hdf5_plain e c o hs hr, if_neg hc]

example : inMemory ⟨true, fun _ => none⟩ (.str "bitshuffle") (.seq [.none, .str "lz4"]) = .ok (.num 32008, .seq [.num 0, .num 2]) := by
  decide

/-- **C74** (HDF5). Settings are refused for HDF5 exactly if there is a codec of `numcodecs`, or bitshuffle is asked for by name and not
installed, or it is installed and the options are not a pair. Any other filter is passed on as it is. -/
theorem C74_hdf5 (e : Env) (c : Val) (o : Opts) (k : Option κ) :
    ((∃ r, hdf5 e c o k = .ok r) ↔
      k = none ∧ (c = .str "bitshuffle" → e.enabled = true) ∧ (e.enabled = true → Shuffles c → ∃ b d, o = .seq [b, d])) ∧
    (k = none → ¬ Shuffles c → c ≠ .none → hdf5 e c o k = .ok (some (c, o))) ∧
    (k = none → c = .none → hdf5 e c o k = .ok none) := by
  refine ⟨?_, ?_, ?_⟩
  · cases k with
    | some k => simp [hdf5]
    | none =>
      by_cases hr : c = .str "bitshuffle" ∧ e.enabled = false
      · have : hdf5 (κ := κ) e c o none = .error .runtimeError := by
          unfold hdf5
          simp [hr.1, hr.2]
        rw [this]
        simp [hr.1, hr.2]
      · by_cases hs : e.enabled = true ∧ Shuffles c
        · constructor
          · rintro ⟨r, h⟩
            refine ⟨rfl, fun _ => hs.1, fun _ _ => ?_⟩
            unfold hdf5 at h
            rw [hs.1, (isShuffle_iff c).2 hs.2] at h
            simp only [Option.isSome_none, Bool.false_eq_true, if_false, Bool.true_eq_false, and_false, Bool.and_self, if_true] at h
            by_cases hn : o = .none
            · simp [hn] at h
            · rw [if_neg hn] at h
              cases hu : unpack o with
              | error x => rw [hu] at h; simp at h
              | ok p => exact ⟨p.1, p.2, (unpack_ok o p.1 p.2).1 hu⟩
          · rintro ⟨-, -, h⟩
            obtain ⟨b, d, rfl⟩ := h hs.1 hs.2
            exact ⟨_, hdf5_shuffle e hs.1 c hs.2 b d⟩
        · rw [hdf5_plain e c o hs hr]
          simp only [Except.ok.injEq, exists_eq', true_iff, true_and]
          refine ⟨fun hc => ?_, fun h h' => absurd ⟨h, h'⟩ hs⟩
          cases he : e.enabled with
          | true => rfl
          | false => exact absurd ⟨hc, he⟩ hr
  · rintro rfl hs hc
    rw [hdf5_plain e c o (fun h => hs h.2) (fun h => hs (.inl h.1)), if_neg hc]
  · rintro rfl rfl
    rw [hdf5_plain e .none o (fun h => (shuffles_ne _ h.2).2 rfl) (fun h => by simp at h)]
    rfl

/-- **C74** (Zarr). Without a compression (`None`, `0` or an empty string) and options Zarr gets the codec that was given. With one, it is
accepted exactly if no codec is given too, the libraries are installed, and it is gzip, or bitshuffle with a pair of options
whose first stands for a number. -/
theorem C74_zarr (e : Env) (c : Val) (o : Opts) (k : Option κ) :
    ((c = .none ∨ c = .str "" ∨ c = .num 0) → o = .none →
      (k = none → zarr e c o k = .ok .none) ∧ ∀ x, k = some x → zarr e c o k = .ok (.given x)) ∧
    (¬ (c = .none ∨ c = .str "" ∨ c = .num 0) →
      ((∃ r, zarr e c o k = .ok r) ↔
        k = none ∧ e.enabled = true ∧ (c = .str "gzip" ∨ (Shuffles c ∧ ∃ b d, o = .seq [b, d] ∧ IsSize e b)))) := by
  constructor
  · rintro hc rfl
    constructor
    · rintro rfl
      rcases hc with rfl | rfl | rfl <;> rfl
    · rintro x rfl
      rcases hc with rfl | rfl | rfl <;> rfl
  · intro hc
    have ht : c.truthy = true := by
      cases c with
      | none => simp at hc
      | str s => simpa [Val.truthy] using hc
      | num n => simpa [Val.truthy] using hc
    cases k with
    | some k => simp [zarr, ht]
    | none =>
      cases he : e.enabled with
      | false => simp [zarr, ht, he]
      | true =>
        by_cases hg : c = .str "gzip"
        · have : zarr (κ := κ) e c o none = .ok (.gzip o) := by
            unfold zarr
            rw [ht, he]
            simp [hg]
          rw [this]
          simp [hg]
        · by_cases hs : Shuffles c
          · rw [zarr_shuffle e he c hs]
            simp only [true_and, hg, false_or, hs]
            constructor
            · rintro ⟨r, h⟩
              cases hu : unpack o with
              | error x => rw [hu] at h; simp at h
              | ok p =>
                obtain ⟨b, d⟩ := p
                rw [hu] at h
                simp only at h
                refine ⟨b, d, (unpack_ok o b d).1 hu, (toInt_ok e b).1 ?_⟩
                cases hi : toInt e (if b = .none then .num 0 else b) with
                | error x => rw [hi] at h; simp at h
                | ok n => exact ⟨n, rfl⟩
            · rintro ⟨b, d, rfl, hb⟩
              obtain ⟨n, hn⟩ := (toInt_ok e b).2 hb
              simp only [unpack, hn]
              exact ⟨_, rfl⟩
          · have : zarr (κ := κ) e c o none = .error .valueError := by
              have hs' : isShuffle c = false := by
                rw [← Bool.not_eq_true, isShuffle_iff]
                exact hs
              unfold zarr
              simp [ht, he, hg, hs']
            simp [this, hg, hs]

example : ∃ r, zarr (κ := Unit) ⟨true, fun _ => none⟩ (.str "bitshuffle") (.seq [.num 0, .str "zstd"]) none = .ok r :=
  ((C74_zarr _ _ _ _).2 (by decide)).2 ⟨rfl, rfl, .inr ⟨.inl rfl, _, _, rfl, .inr (.inl ⟨0, rfl⟩)⟩⟩

/-- **C74** (options). A number of options for the filter other than two is refused with `ValueError` in both formats. -/
theorem C74_options (e : Env) (he : e.enabled = true) (c : Val) (hc : Shuffles c) (l : List Val) (hl : l.length ≠ 2) :
    hdf5 (κ := κ) e c (.seq l) none = .error .valueError ∧ zarr (κ := κ) e c (.seq l) none = .error .valueError := by
  have hu : unpack (.seq l) = .error .valueError := by
    unfold unpack
    split
    · next h =>
      rw [Opts.seq.inj h] at hl
      exact absurd rfl hl
    · rfl
    · next h1 h2 => exact absurd rfl (h2 l)
  rcases hc with rfl | rfl | rfl
  · simp [hdf5, zarr, hu, he, isShuffle, Val.truthy]
  · simp [hdf5, zarr, hu, he, isShuffle, Val.truthy, h5filter]
  · simp [hdf5, zarr, hu, he, isShuffle, Val.truthy]

example (f : String → Option Int) : zarr (κ := Unit) ⟨true, f⟩ (.str "bitshuffle") (.seq [.num 0, .num 2, .num 1]) none = .error .valueError :=
  (C74_options ⟨true, f⟩ rfl (.str "bitshuffle") (.inl rfl) _ (by simp)).2

/-- **C74** (names). A name that ends in `.zarr` or `.zarr.zip`, or is that of a directory, is taken for Zarr; otherwise one
that ends in `.h5` or `.hdf5` for HDF5; for other names the default is taken. -/
theorem C74_names (isDir : Bool) (name : List Char) (dflt : Option Format) :
    ((isDir = true ∨ ∃ p, name = p ++ ".zarr".toList ∨ name = p ++ ".zarr.zip".toList) → guess isDir name dflt = some .zarr) ∧
    (isDir = false → (∃ p, name = p ++ ".h5".toList ∨ name = p ++ ".hdf5".toList) → guess isDir name dflt = some .hdf5) ∧
    (isDir = false → (∀ p s, name = p ++ s → s ≠ ".zarr".toList ∧ s ≠ ".zarr.zip".toList ∧ s ≠ ".h5".toList ∧ s ≠ ".hdf5".toList) →
      guess isDir name dflt = dflt) := by
  have hE : ∀ s : String, endsWith name s = true ↔ ∃ p, name = p ++ s.toList := by
    intro s
    unfold endsWith
    rw [List.isSuffixOf_iff_suffix]
    exact ⟨fun ⟨p, h⟩ => ⟨p, h.symm⟩, fun ⟨p, h⟩ => ⟨p, h.symm⟩⟩
  have hlast : ∀ p s : List Char, name = p ++ s → s ≠ [] → name.getLast? = s.getLast? := by
    intro p s h hs
    rw [h, List.getLast?_append]
    cases hg : s.getLast? with
    | none => exact absurd (List.getLast?_eq_none_iff.1 hg) hs
    | some x => rfl
  refine ⟨?_, ?_, ?_⟩
  · intro h
    unfold guess
    by_cases h1 : endsWith name ".zarr.zip" = true
    · rw [if_pos h1]
    · rw [if_neg h1]
      have : (endsWith name ".zarr" || isDir) = true := by
        rw [Bool.or_eq_true]
        rcases h with h | ⟨p, h | h⟩
        · exact .inr h
        · exact .inl ((hE _).2 ⟨p, h⟩)
        · exact absurd ((hE _).2 ⟨p, h⟩) h1
      rw [if_pos this]
  · rintro rfl ⟨p, h⟩
    have hl : name.getLast? = some '5' := by
      rcases h with h | h <;> rw [hlast _ _ h (by decide)] <;> rfl
    have n1 : ¬ endsWith name ".zarr.zip" = true := by
      rw [hE]
      rintro ⟨q, hq⟩
      rw [hlast _ _ hq (by decide)] at hl
      revert hl; decide
    have n2 : ¬ endsWith name ".zarr" = true := by
      rw [hE]
      rintro ⟨q, hq⟩
      rw [hlast _ _ hq (by decide)] at hl
      revert hl; decide
    unfold guess
    rw [if_neg n1, if_neg (by simpa using n2), if_pos]
    rw [Bool.or_eq_true, hE, hE]
    rcases h with h | h
    · exact .inl ⟨p, h⟩
    · exact .inr ⟨p, h⟩
  · rintro rfl h
    have hn : ∀ s : String, s.toList = ".zarr".toList ∨ s.toList = ".zarr.zip".toList ∨ s.toList = ".h5".toList ∨ s.toList = ".hdf5".toList →
        endsWith name s = false := by
      intro s hs
      rw [← Bool.not_eq_true, hE]
      rintro ⟨p, hp⟩
      obtain ⟨a1, a2, a3, a4⟩ := h p _ hp
      rcases hs with hs | hs | hs | hs
      exacts [a1 hs, a2 hs, a3 hs, a4 hs]
    unfold guess
    rw [hn ".zarr.zip" (.inr (.inl rfl)), hn ".zarr" (.inl rfl), hn ".h5" (.inr (.inr (.inl rfl))), hn ".hdf5" (.inr (.inr (.inr rfl)))]
    rfl

/-- **C74** (check). A format is found if and only if what is known agrees on it: that of the group, or else that of the name, says so, and
neither of them nor the one asked for says otherwise. Nothing is found, without an error, only if nothing is known. -/
theorem C74_check (isDir : Bool) (name : List Char) (fmt data : Option Format) :
    (∀ f, check isDir name fmt data = .ok (some f) ↔
      (data = some f ∨ guess isDir name none = some f) ∧
      (∀ g, data = some g → g = f) ∧ (∀ g, guess isDir name none = some g → g = f) ∧ (∀ g, fmt = some g → g = f)) ∧
    (check isDir name fmt data = .ok none ↔ data = none ∧ guess isDir name none = none ∧ fmt = none) ∧
    (∀ x, check isDir name fmt data = .error x → x = .valueError) := by
  unfold check
  generalize guess isDir name none = g
  rcases data with _ | (_ | _) <;> rcases g with _ | (_ | _) <;> rcases fmt with _ | (_ | _) <;>
    refine ⟨fun f => ?_, ?_, fun x => ?_⟩ <;> (try cases f) <;> (try cases x) <;> decide

example : check false "a.h5".toList (some .hdf5) none = .ok (some .hdf5) := by decide
example : check false "a.h5".toList none (some .zarr) = .error .valueError := by decide

/-- **C74** (datasets). `compression: True` leaves the settings of the datasets as they are, `False` removes chunks and compression from all of
them, and a dictionary changes those of the datasets it names - each at most once - to what it says, apart from options for
bitshuffle, which are added if there are none. -/
theorem C74_datasets (e : Env) (he : e.enabled = true) (sets : List (String × Setting)) :
    settle e (.flag true) sets = sets ∧
    settle e (.flag false) sets = sets.map (fun p => (p.1, ⟨none, .none, .none⟩)) ∧
    ∀ l : List (String × List Entry), (l.map Prod.fst).Nodup →
      List.Forall₂ (fun p q => q.1 = p.1 ∧
        ((∀ d ∈ l, d.1 ≠ p.1) → q.2 = p.2) ∧
        (∀ x, (p.1, x) ∈ l → ∃ s, Chosen p.2 x s ∧
          ((s.comp = .str "bitshuffle" ∨ s.comp = .num 32008) ∧ s.opts = .none → q.2 = { s with opts := .seq [.num 0, .num 2] }) ∧
          (¬ ((s.comp = .str "bitshuffle" ∨ s.comp = .num 32008) ∧ s.opts = .none) → q.2 = s))) sets (settle e (.dict l) sets) := by
  refine ⟨rfl, rfl, fun l hl => ?_⟩
  simp only [settle]
  rw [override_foldl, List.forall₂_map_right_iff]
  apply List.forall₂_same.2
  intro p _
  refine ⟨rfl, fun h => ?_, fun x hx => ?_⟩
  · have : (l.filter fun d => d.1 == p.1) = [] := by
      rw [List.filter_eq_nil_iff]
      intro d hd
      simpa using h d hd
    simp [this]
  · have hone : (l.filter fun d => d.1 == p.1) = [(p.1, x)] := by
      clear * - hl hx
      induction l with
      | nil => simp at hx
      | cons d l ih =>
        rw [List.map_cons, List.nodup_cons] at hl
        rcases List.mem_cons.1 hx with rfl | hx
        · rw [List.filter_cons, if_pos (by simp)]
          have : (l.filter fun d => d.1 == p.1) = [] := by
            rw [List.filter_eq_nil_iff]
            intro d hd
            simp only [beq_iff_eq]
            exact fun h => hl.1 (List.mem_map.2 ⟨d, hd, h⟩)
          rw [this]
        · have hne : ¬ d.1 = p.1 := by
            intro h
            exact hl.1 (List.mem_map.2 ⟨_, hx, h.symm⟩)
          rw [List.filter_cons, if_neg (by simpa using hne)]
          exact ih hl.2 hx
    refine ⟨x.foldl setEntry p.2, foldl_chosen x p.2, ?_⟩
    rw [hone]
    simp only [List.foldl_cons, List.foldl_nil]
    unfold shorthand
    rw [if_pos he]
    exact ⟨fun h => if_pos h, fun h => if_neg h⟩

example : settle ⟨true, fun _ => none⟩ (.dict [("vis", [.comp (.str "bitshuffle")])]) [("vis", ⟨none, .none, .none⟩), ("w", ⟨none, .none, .none⟩)] =
    [("vis", ⟨none, .str "bitshuffle", .seq [.num 0, .num 2]⟩), ("w", ⟨none, .none, .none⟩)] := by decide

/-- **C74** (shorthand). A dataset whose compression is set to bitshuffle by name or number, without options, can be written in either format, with
LZ4 and blocks of a size that the library chooses. -/
theorem C74_shorthand (e : Env) (he : e.enabled = true) (s : Setting) (hc : s.comp = .str "bitshuffle" ∨ s.comp = .num 32008)
    (ho : s.opts = .none) :
    (shorthand e s).chunks = s.chunks ∧
    hdf5 (κ := κ) e (shorthand e s).comp (shorthand e s).opts none = .ok (some (.num 32008, .seq [.num 0, .num 2])) ∧
    zarr (κ := κ) e (shorthand e s).comp (shorthand e s).opts none = .ok (.blosc (.str "lz4") 0) := by
  have h : shorthand e s = { s with opts := .seq [.num 0, .num 2] } := by
    unfold shorthand
    rw [if_pos he, if_pos ⟨hc, ho⟩]
    rfl
  rw [h]
  have hs : Shuffles s.comp := hc.elim .inl (fun h => .inr (.inl h))
  obtain ⟨h1, h2⟩ := C74_spellings (κ := κ) e he s.comp (.num 0) (.num 2) 0 hs (.inl rfl) (.inl rfl)
  exact ⟨rfl, h1, h2⟩

example : (⟨none, .str "bitshuffle", .none⟩ : Setting).opts = .none := rfl

/-! ### Where the property fails -/

/-- C74: a format that is asked for is refused if the name of the file does not tell one, although nothing contradicts it. -/
theorem C74_suffix_violated : check false "map.dat".toList (some .hdf5) none = .error .valueError := by decide

/-- C74: a name that ends in `.zarr/` is not taken for Zarr, unless there is already such a directory. -/
theorem C74_slash_violated : guess false "map.zarr/".toList (some .hdf5) = some .hdf5 ∧ guess true "map.zarr/".toList (some .hdf5) = some .zarr := by
  decide

/-- C74: filters that HDF5 takes - here LZF - cannot be written to Zarr, so that a container cannot be saved. -/
theorem C74_filters_violated (e : Env) : hdf5 (κ := κ) e (.str "lzf") .none none = .ok (some (.str "lzf", .none)) ∧
    zarr (κ := κ) e (.str "lzf") .none none = .error .valueError := by
  constructor
  · exact (C74_hdf5 e (.str "lzf") .none none).2.1 rfl (by unfold Shuffles; decide) (by decide)
  · unfold zarr
    cases e.enabled <;> rfl

/-- C74: without bitshuffle, gzip is refused for Zarr, though it does not need it; for HDF5 it is not. -/
theorem C74_gzip_violated (f : String → Option Int) :
    zarr (κ := κ) ⟨false, f⟩ (.str "gzip") (.num 4) none = .error .valueError ∧
    hdf5 (κ := κ) ⟨false, f⟩ (.str "gzip") (.num 4) none = .ok (some (.str "gzip", .num 4)) := ⟨rfl, rfl⟩

/-- C74: without options, bitshuffle is refused for Zarr with a `TypeError`, for HDF5 with a `ValueError`. -/
theorem C74_error_violated (f : String → Option Int) :
    zarr (κ := κ) ⟨true, f⟩ (.str "bitshuffle") .none none = .error .typeError ∧
    hdf5 (κ := κ) ⟨true, f⟩ (.str "bitshuffle") .none none = .error .valueError := ⟨rfl, rfl⟩

/-- C74: codecs other than LZ4 are not translated: Zarr gets the number that HDF5 has for one, and HDF5 the name. -/
theorem C74_codec_violated (f : String → Option Int) :
    zarr (κ := κ) ⟨true, f⟩ (.str "bitshuffle") (.seq [.num 0, .num 3]) none = .ok (.blosc (.num 3) 0) ∧
    hdf5 (κ := κ) ⟨true, f⟩ (.str "bitshuffle") (.seq [.num 0, .str "zstd"]) none = .ok (some (.num 32008, .seq [.num 0, .str "zstd"])) :=
  ⟨rfl, rfl⟩

/-- C74: a task sets gzip for a dataset whose default is bitshuffle, and the options of bitshuffle stay. -/
theorem C74_stale_violated (f : String → Option Int) :
    settle ⟨true, f⟩ (.dict [("vis", [.comp (.str "gzip")])]) [("vis", ⟨none, .num 32008, .seq [.num 0, .num 2]⟩)] =
      [("vis", ⟨none, .str "gzip", .seq [.num 0, .num 2]⟩)] := by
  rfl

/-- C74: a misspelt key in the settings of a dataset is ignored without a word. -/
theorem C74_key_violated (f : String → Option Int) (sets : List (String × Setting)) (h : ∀ p ∈ sets, p.2.opts ≠ .none) :
    settle ⟨true, f⟩ (.dict [("vis", [.other "compresion"])]) sets = sets := by
  simp only [settle, List.foldl_cons, List.foldl_nil, override]
  nth_rw 2 [← List.map_id sets]
  apply List.map_congr_left
  intro p hp
  simp only [setEntry, shorthand, h p hp, and_false, if_false, ite_self, id]

/-- C74: the filter given by its number in a string is no shorthand, and then refused. -/
theorem C74_string_violated (f : String → Option Int) :
    settle ⟨true, f⟩ (.dict [("vis", [.comp (.str "32008")])]) [("vis", ⟨none, .none, .none⟩)] = [("vis", ⟨none, .str "32008", .none⟩)] ∧
    hdf5 (κ := κ) ⟨true, f⟩ (.str "32008") .none none = .error .valueError := ⟨rfl, rfl⟩

end Verif.Fmt
