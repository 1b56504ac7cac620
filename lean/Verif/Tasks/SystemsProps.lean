import Verif.Tasks.Systems

/-!
# C120: queue systems that are registered can be named in configurations
-/
namespace Verif.Tasks.Systems

/-! ### Specification -/

/-- The description given last for a name. -/
def lastGiven (given : List (String × Desc)) (n : String) : Option Desc := (given.reverse.find? (·.1 = n)).map (·.2)

/-- A description that can be used. -/
def Complete (d : Desc) : Prop := d.script = true ∧ d.command = true ∧ d.mail ≠ some none

/-- The types of mail of a description. -/
def types (d : Desc) : List String := (d.mail.getD none).getD []

/-- The section names the system and has all required keys. -/
def Names (c : Cluster) (n : String) (d : Desc) : Prop := c.system = some n ∧ ∀ k ∈ d.required, k = "system" ∨ k ∈ c.keys

/-! ### Lemmas -/

theorem lookup_put (l : List (String × Desc)) (k : String) (d : Desc) (n : String) : (put l k d).lookup n = if n = k then some d else l.lookup n := by
  unfold put
  split
  · rename_i h
    induction l with
    | nil => simp at h
    | cons x l ih =>
      obtain ⟨a, b⟩ := x
      by_cases ha : a = k
      · subst ha
        simp only [List.map_cons, if_pos, List.lookup_cons]
        by_cases hn : n = a
        · simp [hn]
        · have e : (n == a) = false := by simpa using hn
          simp only [e, if_neg hn]
          clear ih h
          induction l with
          | nil => rfl
          | cons y l ih =>
            obtain ⟨p, q⟩ := y
            by_cases hp : p = a
            · subst hp
              simp only [List.map_cons, if_pos, List.lookup_cons, e]
              exact ih
            · simp only [List.map_cons, if_neg hp, List.lookup_cons, ih]
      · have h' : l.any (·.1 = k) = true := by simpa [ha] using h
        simp only [List.map_cons, if_neg ha, List.lookup_cons, ih h']
        by_cases hn : n = a
        · simp [hn, ha]
        · have e : (n == a) = false := by simpa using hn
          simp [e]
  · rename_i h
    rw [List.lookup_append]
    by_cases hn : n = k
    · subst hn
      have : l.lookup n = none := by
        rw [List.lookup_eq_none_iff]
        intro p hp
        simp only [List.any_eq_true, not_exists, not_and, decide_eq_true_eq] at h
        have := h p hp
        simp [Ne.symm this]
      simp [this]
    · have e : (n == k) = false := by simpa using hn
      simp [List.lookup_cons, e, hn]

theorem lastGiven_cons (x : String × Desc) (xs : List (String × Desc)) (n : String) :
    lastGiven (x :: xs) n = (lastGiven xs n).or (if x.1 = n then some x.2 else none) := by
  unfold lastGiven
  rw [List.reverse_cons, List.find?_append, Option.map_or]
  congr 1
  simp only [List.find?_cons, List.find?_nil]
  by_cases h : x.1 = n <;> simp [h]

theorem register_ok (file : List (String × Desc)) (r : Reg) (h : ∀ x ∈ file, Complete x.2) :
    ∃ r', register file r = (r', none) ∧ (∀ n, r'.systems.lookup n = (lastGiven file n).or (r.systems.lookup n)) ∧ r'.mailTypes = r.mailTypes ++ file.flatMap (types ·.2) := by
  induction file generalizing r with
  | nil => exact ⟨r, rfl, fun n => rfl, by simp⟩
  | cons x file ih =>
    obtain ⟨k, d⟩ := x
    obtain ⟨h1, h2, h3⟩ := h (k, d) (by simp)
    simp only at h1 h2 h3
    have key : ∀ r1 : Reg, r1.systems = put r.systems k d → r1.mailTypes = r.mailTypes ++ types d → register ((k, d) :: file) r = register file r1 →
        ∃ r', register ((k, d) :: file) r = (r', none) ∧ (∀ n, r'.systems.lookup n = (lastGiven ((k, d) :: file) n).or (r.systems.lookup n)) ∧
          r'.mailTypes = r.mailTypes ++ ((k, d) :: file).flatMap (types ·.2) := by
      intro r1 hs hm e
      obtain ⟨r', e', hl, hm'⟩ := ih r1 fun x hx => h x (by simp [hx])
      refine ⟨r', by rw [e, e'], fun n => ?_, by rw [hm', hm]; simp⟩
      rw [hl, hs, lookup_put, lastGiven_cons]
      by_cases hn : n = k
      · subst hn
        cases lastGiven file n <;> simp
      · have := Ne.symm hn
        cases lastGiven file n <;> simp [hn, this]
    cases hm : d.mail with
    | none =>
      refine key { r with systems := put r.systems k d } rfl (by simp [types, hm]) ?_
      simp [register, h1, h2, hm]
    | some o =>
      cases o with
      | none => exact absurd hm h3
      | some ts =>
        refine key ⟨put r.systems k d, r.mailTypes ++ ts⟩ rfl (by simp [types, hm]) ?_
        simp [register, h1, h2, hm]

theorem builtin_complete : ∀ x ∈ builtinFile, Complete x.2 := by
  intro x hx
  simp only [builtinFile, List.mem_cons, List.not_mem_nil, or_false] at hx
  rcases hx with rfl | rfl <;> exact ⟨rfl, rfl, by decide⟩

/-- The table after files have been registered, one after another. -/
def after (files : List (List (String × Desc))) : Reg := files.foldl (fun r f => (register f r).1) fresh

theorem fold_ok (files : List (List (String × Desc))) (h : ∀ f ∈ files, ∀ x ∈ f, Complete x.2) (r : Reg) :
    (∀ n, (files.foldl (fun r f => (register f r).1) r).systems.lookup n = (lastGiven files.flatten n).or (r.systems.lookup n)) ∧
      (files.foldl (fun r f => (register f r).1) r).mailTypes = r.mailTypes ++ files.flatten.flatMap (types ·.2) := by
  induction files generalizing r with
  | nil => exact ⟨fun n => rfl, by simp⟩
  | cons f files ih =>
    obtain ⟨r', e, hl, hm⟩ := register_ok f r (h f (by simp))
    obtain ⟨h1, h2⟩ := ih (fun g hg => h g (by simp [hg])) r'
    simp only [List.foldl_cons, e]
    refine ⟨fun n => ?_, ?_⟩
    · rw [h1, hl, List.flatten_cons]
      have : lastGiven (f ++ files.flatten) n = (lastGiven files.flatten n).or (lastGiven f n) := by
        unfold lastGiven
        rw [List.reverse_append, List.find?_append, Option.map_or]
      rw [this, Option.or_assoc]
    · rw [h2, hm]
      simp

theorem after_ok (files : List (List (String × Desc))) (h : ∀ f ∈ files, ∀ x ∈ f, Complete x.2) :
    (∀ n, (after files).systems.lookup n = lastGiven (builtinFile ++ files.flatten) n) ∧ (after files).mailTypes = (builtinFile ++ files.flatten).flatMap (types ·.2) := by
  have e := fold_ok (builtinFile :: files) (by
    intro f hf
    simp only [List.mem_cons] at hf
    rcases hf with rfl | hf
    · exact builtin_complete
    · exact h f hf) ⟨[], []⟩
  simp only [List.foldl_cons] at e
  refine ⟨fun n => ?_, ?_⟩
  · have := e.1 n
    simp only [List.lookup_nil, Option.or_none, List.flatten_cons] at this
    exact this
  · have := e.2
    simp only [List.nil_append, List.flatten_cons] at this
    exact this

/-! ### The property -/

/-- **C120** (partial) After files with complete descriptions have been registered, every system described in them, and every built-in one, can be named, and the description given last is used; the old
names of clusters stand for `pbs` and `slurm` as long as no system of that name is registered.

Missing: a section without `system` (`C120_no_system_violated`), registration by the command (`C120_command_violated`). -/
theorem C120_named_partial (files : List (List (String × Desc))) (h : ∀ f ∈ files, ∀ x ∈ f, Complete x.2) (c : Cluster) (n : String) (d : Desc) :
    (lastGiven (builtinFile ++ files.flatten) n = some d → Names c n d → resolve (after files) (some c) = .ok (n, d)) ∧
    (∀ n', lastGiven (builtinFile ++ files.flatten) n = none → (n, n') ∈ [("gpc", "pbs"), ("cedar", "slurm"), ("fir", "slurm")] →
      lastGiven (builtinFile ++ files.flatten) n' = some d → Names c n d → resolve (after files) (some c) = .ok (n', d)) := by
  obtain ⟨hl, _⟩ := after_ok files h
  have hk : ∀ m, Names c n d → checkKeys d c m = .ok (m, d) := by
    intro m hn
    unfold checkKeys
    rw [if_pos]
    rw [List.all_eq_true]
    intro k hk
    rcases hn.2 k hk with h | h <;> simp [h]
  constructor
  · intro hg hn
    simp only [resolve, hn.1, hl, hg]
    exact hk n hn
  · intro n' hg hc hg' hn
    have hcl : clusters.lookup n = some n' := by
      simp only [List.mem_cons, Prod.mk.injEq, List.not_mem_nil, or_false] at hc
      rcases hc with ⟨rfl, rfl⟩ | ⟨rfl, rfl⟩ | ⟨rfl, rfl⟩ <;> decide
    simp only [resolve, hn.1, hl, hg, hcl, hg']
    exact hk n' hn

/-- A third system, and a configuration that names it. -/
def exDesc : Desc := ⟨7, true, true, ["nodes"], some (some ["ALL", "NONE"])⟩

def exCluster : Cluster := ⟨["nodes", "time"], some "lsf"⟩

example : (∀ x ∈ [("lsf", exDesc)], Complete x.2) ∧ lastGiven (builtinFile ++ [[("lsf", exDesc)]].flatten) "lsf" = some exDesc ∧ Names exCluster "lsf" exDesc ∧
    lastGiven (builtinFile ++ [[("lsf", exDesc)]].flatten) "cedar" = none := by
  refine ⟨by simp [Complete, exDesc], by decide +kernel, ⟨rfl, by simp [exDesc, exCluster]⟩, by decide +kernel⟩

/-- **C120** A configuration that names a system and has not all of its required keys is a `ValueError`, as is a file with a description without script or command, and that description is not
registered. -/
theorem C120_refused (r : Reg) :
    (∀ (c : Cluster) (n : String) (d : Desc) (k : String), c.system = some n → r.systems.lookup n = some d → k ∈ d.required → k ≠ "system" → k ∉ c.keys →
      resolve r (some c) = .error .valueError) ∧
    (∀ (n : String) (d : Desc) (rest : List (String × Desc)), d.script = false ∨ d.command = false → register ((n, d) :: rest) r = (r, some .valueError)) := by
  constructor
  · intro c n d k hc hl hk hs hn
    simp only [resolve, hc, hl, checkKeys]
    rw [if_neg]
    simp only [List.all_eq_true, not_forall]
    exact ⟨k, hk, by simp [hs, hn]⟩
  · intro n d rest h
    rcases h with h | h <;> simp [register, h]

example : resolve fresh (some ⟨["name", "nodes"], some "slurm"⟩) = .error .valueError := rfl

/-- **C120** (violated) An unknown system is not a `ValueError` that lists those known, but the exception for a variable that has no value. -/
theorem C120_unknown_violated (r : Reg) (c : Cluster) (n : String) (hc : c.system = some n) (hl : r.systems.lookup n = none) (hk : clusters.lookup n = none) :
    resolve r (some c) = .error .unbound := by
  simp only [resolve, hc, hl, hk]

example : resolve fresh (some exCluster) = .error .unbound := C120_unknown_violated fresh exCluster "lsf" rfl (by decide +kernel) (by decide +kernel)

/-- **C120** (violated) If a file has an incomplete description, those in front of it are registered although there is an exception. -/
theorem C120_half_violated (r : Reg) (n m : String) (d e : Desc) (hd : Complete d) (he : e.script = false) :
    (register [(n, d), (m, e)] r).2 = some .valueError ∧ (register [(n, d), (m, e)] r).1.systems.lookup n = some d := by
  obtain ⟨h1, h2, h3⟩ := hd
  cases hm : d.mail with
  | none => simp [register, h1, h2, hm, he, lookup_put]
  | some o =>
    cases o with
    | none => exact absurd hm h3
    | some ts => simp [register, h1, h2, hm, he, lookup_put]

example : Complete exDesc ∧ (Desc.mk 8 false true [] none).script = false := ⟨⟨rfl, rfl, by decide⟩, rfl⟩

/-- **C120** (partial) All types of mail of the systems that are registered are offered, and every type offered is one of a system that was registered at some time.

Missing: see `C120_mail_violated`. -/
theorem C120_mail_partial (files : List (List (String × Desc))) (h : ∀ f ∈ files, ∀ x ∈ f, Complete x.2) :
    (∀ n d t, lastGiven (builtinFile ++ files.flatten) n = some d → t ∈ types d → t ∈ (after files).mailTypes) ∧
    (∀ t ∈ (after files).mailTypes, ∃ x ∈ builtinFile ++ files.flatten, t ∈ types x.2) := by
  obtain ⟨_, hm⟩ := after_ok files h
  rw [hm]
  constructor
  · intro n d t hd ht
    simp only [lastGiven, Option.map_eq_some_iff] at hd
    obtain ⟨x, hx, rfl⟩ := hd
    exact List.mem_flatMap.2 ⟨x, List.mem_reverse.1 (List.mem_of_find?_eq_some hx), ht⟩
  · intro t ht
    exact List.mem_flatMap.1 ht

/-- **C120** (violated) The types of mail of a description stay after it has been replaced: with `slurm` replaced, no registered system has the type `BEGIN`, but it is offered. -/
theorem C120_mail_violated : (∀ n d, (after [[("slurm", exDesc)]]).systems.lookup n = some d → "BEGIN" ∉ types d) ∧ "BEGIN" ∈ (after [[("slurm", exDesc)]]).mailTypes := by
  refine ⟨fun n d hd => ?_, by decide +kernel⟩
  have : (after [[("slurm", exDesc)]]).systems = [("slurm", exDesc), ("pbs", pbs)] := by decide +kernel
  rw [this] at hd
  simp only [List.lookup_cons, List.lookup_nil] at hd
  split at hd
  · cases hd; decide +kernel
  · split at hd
    · cases hd; decide +kernel
    · cases hd

/-- **C120** (violated) The key `system`, which is described as optional, is needed. -/
theorem C120_no_system_violated (r : Reg) (keys : List String) : resolve r (some ⟨keys, none⟩) = .error .keyError := rfl

/-- **C120** (violated) The command register-system changes nothing for other commands: it succeeds, but a new system cannot be named afterwards. -/
theorem C120_command_violated (f : List (String × Desc)) (hf : ∀ x ∈ f, Complete x.2) (c : Cluster) (n : String) (hc : c.system = some n)
    (hb : n ∉ ["slurm", "pbs", "gpc", "cedar", "fir"]) : runCmds [.registerSystem f, .queue (some c)] = [.done, .failed .unbound] := by
  obtain ⟨r', e, _, _⟩ := register_ok f fresh hf
  simp only [List.mem_cons, List.not_mem_nil, or_false, not_or] at hb
  obtain ⟨h1, h2, h3, h4, h5⟩ := hb
  have hl : fresh.systems.lookup n = none := by
    have : fresh.systems = [("slurm", slurm), ("pbs", pbs)] := by decide +kernel
    rw [this]
    have e1 : (n == "slurm") = false := by simpa using h1
    have e2 : (n == "pbs") = false := by simpa using h2
    simp [List.lookup_cons, e1, e2]
  have hk : clusters.lookup n = none := by
    have e1 : (n == "gpc") = false := by simpa using h3
    have e2 : (n == "cedar") = false := by simpa using h4
    have e3 : (n == "fir") = false := by simpa using h5
    simp [clusters, List.lookup_cons, e1, e2, e3]
  have := C120_unknown_violated fresh c n hc hl hk
  simp only [runCmds, List.map_cons, List.map_nil, runCmd, e, this]

example : runCmds [.registerSystem [("lsf", exDesc)], .queue (some exCluster)] = [.done, .failed .unbound] := by decide +kernel

end Verif.Tasks.Systems
