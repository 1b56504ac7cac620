import Verif.Tasks.Documents

/-!
# C129: properties of the tasks that save the configuration and the versions
-/
namespace Verif.Tasks

/-! ## Lemmas -/

theorem writeAt_length (old : List Char) (n : Nat) (c : List Char) :
    (writeAt old n c).length = max old.length (n + c.length) := by
  simp only [writeAt, List.length_append, List.length_take, List.length_replicate, List.length_drop]
  omega

theorem writeAt_lt (old : List Char) (n : Nat) (c : List Char) (i : Nat) (h : i < n) (ho : i < old.length) :
    (writeAt old n c)[i]? = old[i]? := by
  have h1 : i < (List.take n (old ++ List.replicate (n - old.length) '\x00')).length := by
    simp only [List.length_take, List.length_append, List.length_replicate]; omega
  rw [writeAt, List.append_assoc, List.getElem?_append_left h1, List.getElem?_take_of_lt h, List.getElem?_append_left ho]

theorem writeAt_mid (old : List Char) (n : Nat) (c : List Char) (i : Nat) (h : n ≤ i) (hc : i < n + c.length) :
    (writeAt old n c)[i]? = c[i - n]? := by
  have h1 : (List.take n (old ++ List.replicate (n - old.length) '\x00')).length = n := by
    simp only [List.length_take, List.length_append, List.length_replicate]; omega
  rw [writeAt, List.append_assoc, List.getElem?_append_right (by omega), h1, List.getElem?_append_left (by omega)]

theorem writeAt_ge (old : List Char) (n : Nat) (c : List Char) (i : Nat) (h : n + c.length ≤ i) :
    (writeAt old n c)[i]? = old[i]? := by
  have h1 : (List.take n (old ++ List.replicate (n - old.length) '\x00')).length = n := by
    simp only [List.length_take, List.length_append, List.length_replicate]; omega
  rw [writeAt, List.append_assoc, List.getElem?_append_right (by omega), h1, List.getElem?_append_right (by omega),
    List.getElem?_drop]
  congr 1
  omega

/-- A piece of the document keeps what is right. -/
theorem writeAt_keeps (T old : List Char) (m n k : Nat) (ho : ∀ i < m, old[i]? = T[i]?) (hm : m ≤ old.length) :
    ∀ i < m, (writeAt old n ((T.drop n).take k))[i]? = T[i]? := by
  intro i hi
  by_cases h1 : i < n
  · rw [writeAt_lt _ _ _ _ h1 (by omega), ho i hi]
  · by_cases h2 : i < n + ((T.drop n).take k).length
    · rw [writeAt_mid _ _ _ _ (by omega) h2, List.getElem?_take_of_lt, List.getElem?_drop]
      · congr 1; omega
      · have := List.length_take_le k (T.drop n); omega
    · rw [writeAt_ge _ _ _ _ (by omega), ho i hi]

/-- The next piece is right. -/
theorem writeAt_grows (T old : List Char) (n k : Nat) (ho : ∀ i < n, old[i]? = T[i]?) (hm : n ≤ old.length) :
    ∀ i < n + ((T.drop n).take k).length, (writeAt old n ((T.drop n).take k))[i]? = T[i]? := by
  intro i hi
  by_cases h1 : i < n
  · rw [writeAt_lt _ _ _ _ h1 (by omega), ho i h1]
  · rw [writeAt_mid _ _ _ _ (by omega) hi, List.getElem?_take_of_lt, List.getElem?_drop]
    · congr 1; omega
    · have := List.length_take_le k (T.drop n); omega

theorem name_kind (a b : Saver) (h : a.fileName = b.fileName) : a.kind = b.kind := by
  have hl := congrArg List.reverse h
  obtain ⟨ka, ra⟩ := a
  obtain ⟨kb, rb⟩ := b
  cases ka <;> cases kb <;> first | rfl | (simp [Saver.fileName] at hl)

/-- The state of one file: either no process has opened it, or the one that opened it last has written rightly as far as it is. -/
def FileInv (ts : List Saver) (T : List Char) (f : List Char) (before : Option (List Char)) (D : Disk) : Prop :=
  (∀ (p t : Nat) (s : Saver), ts[t]? = some s → s.fileName = f → ∀ n, D.pos p t = some n → n ≤ T.length) ∧
  (((∀ (p t : Nat) (s : Saver), ts[t]? = some s → s.fileName = f → D.pos p t = none) ∧ D.files f = before) ∨
    ∃ p t s n old, ts[t]? = some s ∧ s.fileName = f ∧ D.pos p t = some n ∧ D.files f = some old ∧ n ≤ old.length ∧
      old.length ≤ T.length ∧ ∀ i < n, old[i]? = T[i]?)

theorem fileInv_step {ts : List Saver} {text : Nat → SaverKind → List Char} {T f : List Char} {before : Option (List Char)}
    (hT : ∀ (p t : Nat) (s : Saver), ts[t]? = some s → s.fileName = f → text p s.kind = T) {D D' : Disk} {e : DiskEvent}
    (h : FileInv ts T f before D) (hs : diskStep ts text D e = some D') : FileInv ts T f before D' := by
  obtain ⟨hp, hf⟩ := h
  cases e with
  | opens p t =>
    simp only [diskStep] at hs
    split at hs
    · rename_i s hts hpos
      cases hs
      by_cases hn : s.fileName = f
      · refine ⟨?_, .inr ⟨p, t, s, 0, [], hts, hn, by simp [Disk.setPos], by simp [Disk.setFile, hn], by simp, by simp, by simp⟩⟩
        intro q u s' hu hs' n hq
        simp only [Disk.setPos] at hq
        split at hq
        · cases hq; omega
        · exact hp q u s' hu hs' n hq
      · have hne : ∀ (q u : Nat) (s' : Saver), ts[u]? = some s' → s'.fileName = f → D.setPos p t 0 q u = D.pos q u := by
          intro q u s' hu hs'
          simp only [Disk.setPos]
          split
          · rename_i hqu
            obtain ⟨rfl, rfl⟩ := hqu
            rw [hts] at hu; cases hu; exact absurd hs' hn
          · rfl
        have hfile : D.setFile s.fileName [] f = D.files f := by
          simp [Disk.setFile, Ne.symm hn]
        refine ⟨fun q u s' hu hs' n hq => hp q u s' hu hs' n (by rw [← hne q u s' hu hs']; exact hq), ?_⟩
        rcases hf with ⟨h1, h2⟩ | ⟨q, u, s', n, old, hu, hs', hq, ho, hr⟩
        · exact .inl ⟨fun q u s' hu hs' => by rw [← h1 q u s' hu hs']; exact hne q u s' hu hs', hfile.trans h2⟩
        · exact .inr ⟨q, u, s', n, old, hu, hs', (hne q u s' hu hs').trans hq, hfile.trans ho, hr⟩
    · cases hs
  | flush p t k =>
    simp only [diskStep] at hs
    split at hs
    · rename_i s m hts hpos
      split at hs
      · rename_i old' hold
        cases hs
        by_cases hn : s.fileName = f
        · have hTs := hT p t s hts hn
          rw [hTs]
          have hm := hp p t s hts hn m hpos
          have hlen : m + ((T.drop m).take k).length ≤ T.length := by
            simp only [List.length_take, List.length_drop]; omega
          rcases hf with ⟨h1, _⟩ | ⟨q, u, s', n, old, hu, hs', hq, ho, hno, hoT, hr⟩
          · rw [h1 p t s hts hn] at hpos; cases hpos
          · rw [hn, ho] at hold
            cases hold
            refine ⟨?_, .inr ?_⟩
            · intro q' u' s'' hu' hs'' n' hq'
              simp only [Disk.setPos] at hq'
              split at hq'
              · cases hq'; exact hlen
              · exact hp q' u' s'' hu' hs'' n' hq'
            · have hfile : D.setFile s.fileName (writeAt old' m ((T.drop m).take k)) f
                  = some (writeAt old' m ((T.drop m).take k)) := by simp [Disk.setFile, hn]
              by_cases hqu : q = p ∧ u = t
              · obtain ⟨rfl, rfl⟩ := hqu
                rw [hpos] at hq
                cases hq
                refine ⟨q, u, s, _, _, hts, hn, by simp [Disk.setPos], hfile, ?_, ?_, writeAt_grows T old' m k hr hno⟩
                · rw [writeAt_length]; simp only [List.length_take, List.length_drop]; omega
                · rw [writeAt_length]; omega
              · refine ⟨q, u, s', n, _, hu, hs', by simp only [Disk.setPos, if_neg hqu]; exact hq, hfile, ?_, ?_,
                  writeAt_keeps T old' n m k hr hno⟩
                · rw [writeAt_length]; omega
                · rw [writeAt_length]; omega
        · generalize writeAt old' m _ = c
          generalize m + _ = m'
          have hne : ∀ (q u : Nat) (s' : Saver), ts[u]? = some s' → s'.fileName = f → D.setPos p t m' q u = D.pos q u := by
            intro q u s' hu hs'
            simp only [Disk.setPos]
            split
            · rename_i hqu
              obtain ⟨rfl, rfl⟩ := hqu
              rw [hts] at hu; cases hu; exact absurd hs' hn
            · rfl
          have hfile : D.setFile s.fileName c f = D.files f := by
            simp [Disk.setFile, Ne.symm hn]
          refine ⟨fun q u s' hu hs' n hq => hp q u s' hu hs' n (by rw [← hne q u s' hu hs']; exact hq), ?_⟩
          rcases hf with ⟨h1, h2⟩ | ⟨q, u, s', n, old, hu, hs', hq, ho, hr⟩
          · exact .inl ⟨fun q u s' hu hs' => by rw [← h1 q u s' hu hs']; exact hne q u s' hu hs', hfile.trans h2⟩
          · exact .inr ⟨q, u, s', n, old, hu, hs', (hne q u s' hu hs').trans hq, hfile.trans ho, hr⟩
      · cases hs
    · cases hs

theorem fileInv_run {ts : List Saver} {text : Nat → SaverKind → List Char} {T f : List Char} {before : Option (List Char)}
    (hT : ∀ (p t : Nat) (s : Saver), ts[t]? = some s → s.fileName = f → text p s.kind = T) (es : List DiskEvent) :
    ∀ {D D' : Disk}, FileInv ts T f before D → diskRun ts text D es = some D' → FileInv ts T f before D' := by
  induction es with
  | nil => intro D D' h hr; cases hr; exact h
  | cons e es ih =>
    intro D D' h hr
    rw [diskRun] at hr
    split at hr
    · rename_i D1 h1
      exact ih (fileInv_step hT h h1) hr
    · cases hr

/-! ## Properties -/

/-- No process has begun. -/
def Disk.Fresh (D : Disk) : Prop := ∀ p t, D.pos p t = none

/-- The processes `0, ..., N - 1` have written all of the document of task `t`, and there are no others. -/
def Disk.Through (N : Nat) (text : Nat → SaverKind → List Char) (t : Nat) (s : Saver) (D : Disk) : Prop :=
  (∀ p < N, D.pos p t = some (text p s.kind).length) ∧ ∀ p, N ≤ p → D.pos p t = none

/-- **C129** It is enough that all processes are through with the tasks that write this file: whatever the others are doing, at any point of any
interleaving at which this is so the file is its document. So with one process it is complete as soon as the process has set the task up. -/
theorem C129_each_partial (ts : List Saver) (text : Nat → SaverKind → List Char) (doc : SaverKind → List Char)
    (hdoc : ∀ p k, text p k = doc k) (N : Nat) (hN : 0 < N) (D D' : Disk) (es : List DiskEvent) (hfresh : D.Fresh)
    (hrun : diskRun ts text D es = some D') (s : Saver) (hs : s ∈ ts)
    (hall : ∀ (t : Nat) (s' : Saver), ts[t]? = some s' → s'.fileName = s.fileName → D'.Through N text t s') :
    D'.files s.fileName = some (doc s.kind) := by
  obtain ⟨t, ht⟩ := List.getElem?_of_mem hs
  have hT : ∀ (p u : Nat) (s' : Saver), ts[u]? = some s' → s'.fileName = s.fileName → text p s'.kind = doc s.kind := by
    intro p u s' _ hn
    rw [hdoc, name_kind _ _ hn]
  have h0 : FileInv ts (doc s.kind) s.fileName (D.files s.fileName) D :=
    ⟨fun p u s' _ _ n hn => (by rw [hfresh p u] at hn; cases hn), .inl ⟨fun p u _ _ _ => hfresh p u, rfl⟩⟩
  obtain ⟨_, ⟨h1, _⟩ | ⟨p, u, s', n, old, hu, hs', hq, ho, hno, hoT, hr⟩⟩ := fileInv_run hT es h0 hrun
  · have := (hall t s ht rfl).1 0 hN
    rw [h1 0 t s ht rfl] at this
    cases this
  · have hn : n = (doc s.kind).length := by
      by_cases hp : p < N
      · have := (hall u s' hu hs').1 p hp
        rw [hq, hT p u s' hu hs'] at this
        exact Option.some.inj this
      · have := (hall u s' hu hs').2 p (by omega)
        rw [hq] at this
        cases this
    rw [ho]
    congr 1
    apply List.ext_getElem?
    intro i
    by_cases hi : i < n
    · exact hr i hi
    · rw [List.getElem?_eq_none (by omega), List.getElem?_eq_none (by omega)]

/-- **C129** When all of `N > 0` processes have set up all tasks, in any interleaving of their opens and writes, the file of each task holds
the whole document and nothing else, whatever was in it before. All processes have the same document (see
`C129_mixed_violated`). -/
theorem C129_complete_partial (ts : List Saver) (text : Nat → SaverKind → List Char) (doc : SaverKind → List Char)
    (hdoc : ∀ p k, text p k = doc k) (N : Nat) (hN : 0 < N) (D D' : Disk) (es : List DiskEvent) (hfresh : D.Fresh)
    (hrun : diskRun ts text D es = some D') (hall : ∀ t s, ts[t]? = some s → D'.Through N text t s) :
    ∀ s ∈ ts, D'.files s.fileName = some (doc s.kind) := by
  exact fun s hs => C129_each_partial ts text doc hdoc N hN D D' es hfresh hrun s hs (fun t s' h _ => hall t s' h)

/-- **C129** Two tasks write the same file only if they save the same, with the same root. -/
theorem C129_names (a b : Saver) (ra rb : List Char) (ha : a.root = some ra) (hb : b.root = some rb) :
    a.fileName = b.fileName ↔ a = b := by
  constructor
  · intro h
    have hk := name_kind a b h
    obtain ⟨ka, roa⟩ := a
    obtain ⟨kb, rob⟩ := b
    cases ha; cases hb; cases hk
    cases ka <;> simpa [Saver.fileName, Saver.rootText] using h
  · rintro rfl; rfl

/-- **C129** All files that are not those of the tasks stay as they were, at any point of any interleaving. -/
theorem C129_others (ts : List Saver) (text : Nat → SaverKind → List Char) (D D' : Disk) (es : List DiskEvent)
    (hrun : diskRun ts text D es = some D') (f : List Char) (hf : ∀ s ∈ ts, s.fileName ≠ f) : D'.files f = D.files f := by
  induction es generalizing D with
  | nil => cases hrun; rfl
  | cons e es ih =>
    rw [diskRun] at hrun
    split at hrun
    · rename_i D1 h1
      rw [ih D1 hrun]
      cases e with
      | opens p t =>
        simp only [diskStep] at h1
        split at h1
        · rename_i s hts _
          cases h1
          simp [Disk.setFile, Ne.symm (hf s (List.mem_of_getElem? hts))]
        · cases h1
      | flush p t k =>
        simp only [diskStep] at h1
        split at h1
        · rename_i s n hts _
          split at h1
          · cases h1
            simp [Disk.setFile, Ne.symm (hf s (List.mem_of_getElem? hts))]
          · cases h1
        · cases h1
    · cases hrun

/-- **C129** The name is the root, and `_versions.yml` or `_config.yml`. -/
theorem C129_file_name (r : String) :
    String.ofList (Saver.fileName ⟨.versions, some r.toList⟩) = r ++ "_versions.yml" ∧
      String.ofList (Saver.fileName ⟨.config, some r.toList⟩) = r ++ "_config.yml" := by
  simp [Saver.fileName, Saver.rootText]

def exSavers : List Saver := [⟨.config, some "run".toList⟩, ⟨.versions, some "run".toList⟩]
def exDoc : SaverKind → List Char
  | .config => "pipeline: {}\n".toList
  | .versions => "caput: 1.0\n".toList
def exDisk : Disk := ⟨fun f => if f = "run_config.yml".toList then some "something old and long".toList else none, fun _ _ => none⟩

/-- Process 1 truncates between two writes of process 0, whose second write leaves a gap that process 1 fills. -/
def exEvents : List DiskEvent :=
  [.opens 0 0, .flush 0 0 5, .opens 1 0, .flush 0 0 100, .opens 0 1, .flush 0 1 100, .flush 1 0 100, .opens 1 1, .flush 1 1 3, .flush 1 1 8]

/-- The process of an event. -/
def DiskEvent.proc : DiskEvent → Nat
  | .opens p _ => p
  | .flush p _ _ => p

theorem untouched (ts : List Saver) (text : Nat → SaverKind → List Char) (es : List DiskEvent) (p t : Nat) :
    ∀ (D D' : Disk), diskRun ts text D es = some D' → (∀ e ∈ es, e.proc ≠ p) → D'.pos p t = D.pos p t := by
  induction es with
  | nil => intro D D' h _; cases h; rfl
  | cons e es ih =>
    intro D D' h he
    rw [diskRun] at h
    split at h
    · rename_i D1 h1
      rw [ih D1 D' h (fun e' h' => he e' (List.mem_cons_of_mem _ h'))]
      have h2 := he e List.mem_cons_self
      cases e with
      | opens q u =>
        simp only [diskStep] at h1
        split at h1
        · cases h1
          simp only [Disk.setPos]
          rw [if_neg (fun hc => h2 hc.1.symm)]
        · cases h1
      | flush q u k =>
        simp only [diskStep] at h1
        split at h1
        · split at h1
          · cases h1
            simp only [Disk.setPos]
            rw [if_neg (fun hc => h2 hc.1.symm)]
          · cases h1
        · cases h1
    · cases h

/-- Concrete case: two processes and two tasks, with an old file. -/
example : exDisk.Fresh ∧ ∃ D', diskRun exSavers (fun _ => exDoc) exDisk exEvents = some D' ∧
    (∀ t s, exSavers[t]? = some s → D'.Through 2 (fun _ => exDoc) t s) ∧
    D'.files "run_config.yml".toList = some "pipeline: {}\n".toList := by
  refine ⟨fun _ _ => rfl, ?_⟩
  have h : (diskRun exSavers (fun _ => exDoc) exDisk exEvents).map (fun D => ([D.pos 0 0, D.pos 1 0, D.pos 0 1, D.pos 1 1],
      D.files "run_config.yml".toList)) = some ([some 13, some 13, some 11, some 11], some "pipeline: {}\n".toList) := by
    decide +kernel
  cases hD : diskRun exSavers (fun _ => exDoc) exDisk exEvents with
  | none => rw [hD] at h; cases h
  | some D' =>
    rw [hD] at h
    simp only [Option.map_some, Option.some.injEq, Prod.mk.injEq, List.cons.injEq, and_true] at h
    obtain ⟨⟨h1, h2, h3, h4⟩, h5⟩ := h
    have hno : ∀ p t, 2 ≤ p → D'.pos p t = none := by
      intro p t hp
      rw [untouched _ _ _ p t _ _ hD]
      · rfl
      · intro e he
        have : ∀ e ∈ exEvents, e.proc < 2 := by decide
        have := this e he
        omega
    refine ⟨D', rfl, ?_, h5⟩
    intro t s hs
    match t, hs with
    | 0, hs =>
      cases hs
      refine ⟨fun p hp => ?_, fun p hp => hno p 0 hp⟩
      match p, hp with
      | 0, _ => exact h1
      | 1, _ => exact h2
    | 1, hs =>
      cases hs
      refine ⟨fun p hp => ?_, fun p hp => hno p 1 hp⟩
      match p, hp with
      | 0, _ => exact h3
      | 1, _ => exact h4

/-- Concrete case: one process has set up the first task and has not begun with the second. -/
example : ∃ D', diskRun exSavers (fun _ => exDoc) exDisk [.opens 0 0, .flush 0 0 5, .flush 0 0 100] = some D' ∧
    (∀ (t : Nat) (s' : Saver), exSavers[t]? = some s' → s'.fileName = "run_config.yml".toList → D'.Through 1 (fun _ => exDoc) t s') ∧
    D'.pos 0 1 = none := by
  have h : (diskRun exSavers (fun _ => exDoc) exDisk [.opens 0 0, .flush 0 0 5, .flush 0 0 100]).map (fun D => [D.pos 0 0, D.pos 0 1]) =
      some [some 13, none] := by decide +kernel
  cases hD : diskRun exSavers (fun _ => exDoc) exDisk [.opens 0 0, .flush 0 0 5, .flush 0 0 100] with
  | none => rw [hD] at h; cases h
  | some D' =>
    rw [hD] at h
    simp only [Option.map_some, Option.some.injEq, List.cons.injEq, and_true] at h
    refine ⟨D', rfl, ?_, h.2⟩
    intro t s hs hn
    match t, hs with
    | 0, hs =>
      cases hs
      refine ⟨fun p hp => ?_, fun p hp => ?_⟩
      · match p, hp with
        | 0, _ => exact h.1
      · rw [untouched _ _ _ p 0 _ _ hD]
        · rfl
        · intro e he
          have : ∀ e ∈ [DiskEvent.opens 0 0, .flush 0 0 5, .flush 0 0 100], e.proc < 1 := by decide
          have := this e he
          omega
    | 1, hs =>
      cases hs
      exact absurd hn (by decide +kernel)

example : (Saver.fileName ⟨.config, some "a".toList⟩ ≠ Saver.fileName ⟨.versions, some "a".toList⟩) ∧
    ∀ s ∈ exSavers, s.fileName ≠ "other.yml".toList := by decide +kernel

/-- **C129 does not hold before all are through**: a process that has set the task up, and has seen its document in the file, can find the
file empty, as another process opens it for writing. -/
theorem C129_early_violated :
    ∃ D1 D2, diskRun exSavers (fun _ => exDoc) exDisk [.opens 0 0, .flush 0 0 100] = some D1 ∧
      D1.files "run_config.yml".toList = some (exDoc .config) ∧ D1.pos 0 0 = some (exDoc .config).length ∧
      diskRun exSavers (fun _ => exDoc) D1 [.opens 1 0] = some D2 ∧ D2.pos 0 0 = some (exDoc .config).length ∧
      D2.files "run_config.yml".toList = some [] :=
  ⟨_, _, rfl, by decide +kernel, by decide +kernel, rfl, by decide +kernel, by decide +kernel⟩

def exVersions : Nat → SaverKind → List Char
  | 0, .versions => "caput: 1.10\n".toList
  | _, .versions => "caput: 1.9\n".toList
  | _, .config => []

/-- **C129 does not hold if the processes do not have the same versions** (nodes with different installations): what both leave is the document
of neither. -/
theorem C129_mixed_violated :
    ∃ D', diskRun exSavers exVersions exDisk [.opens 0 1, .opens 1 1, .flush 0 1 100, .flush 1 1 100] = some D' ∧
      D'.pos 0 1 = some (exVersions 0 .versions).length ∧ D'.pos 1 1 = some (exVersions 1 .versions).length ∧
      D'.files "run_versions.yml".toList = some "caput: 1.9\n\n".toList ∧
      ∀ p, exVersions p .versions ≠ "caput: 1.9\n\n".toList := by
  refine ⟨_, rfl, by decide +kernel, by decide +kernel, by decide +kernel, ?_⟩
  intro p
  match p with
  | 0 => decide +kernel
  | p + 1 => show "caput: 1.9\n".toList ≠ _; decide +kernel

/-- **C129 does not hold without a root**: it is not asked for, and the file is that of the root `None`. -/
theorem C129_root_violated :
    String.ofList (Saver.fileName ⟨.config, none⟩) = "None_config.yml" ∧
      Saver.fileName ⟨.versions, none⟩ = Saver.fileName ⟨.versions, some "None".toList⟩ := by decide +kernel

end Verif.Tasks
