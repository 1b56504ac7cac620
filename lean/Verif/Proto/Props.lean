import Verif.Proto.Lemmas

/-!
# C64: what a container is when it has been built
-/
namespace Verif.Proto

open Verif.Dist (NArr MArr Comm IsBlock)
open Verif.Reshape (InShape)
open Verif.Mpi (blockStart blockLen)

variable {α β V Ty : Type}

/-! ### Facts used below -/

theorem init_ok (E : Env α β V Ty) (spec : List (String × DSpec Ty)) (a : Args α β V) (b c : Box α β V)
    (hs : (spec.map (·.1)).Nodup) (hc : a.comm.rank < a.comm.size) (hb : b.dsets = fun _ => none)
    (h : initDsets E spec a b = .ok c) :
    c.maps = b.maps ∧ c.mapAttrs = b.mapAttrs ∧ c.attrs = b.attrs ∧
    (∀ n, n ∉ spec.map (·.1) → c.dsets n = none) ∧
    ∀ nd ∈ spec, (a.skip = true ∨ nd.2.initialise = false → c.dsets nd.1 = none) ∧
      (a.skip = false → nd.2.initialise = true → ∃ x, c.dsets nd.1 = some x ∧
        Specified b.maps a.distributed a.comm nd.2 x ∧ x.attrs = (fun _ => none) ∧
        ∀ A, x.data = .common A → ∀ i, A.val i = E.zero) := by
  unfold initDsets at h
  by_cases hk : a.skip = true
  · rw [if_pos hk] at h
    obtain rfl := Except.ok.inj h
    simp [hb, hk]
  · rw [if_neg hk] at h
    have hn : ((spec.filter (·.2.initialise)).map (·.1)).Nodup := hs.sublist (List.filter_sublist.map _)
    obtain ⟨h1, h2, h3, h4, h5⟩ := fold_local (fun b nd => addDataset E a b nd.1 nd.2)
      (fun b nd b' hb' => by
        obtain ⟨p1, p2, p3, p4, -⟩ := addDataset_ok E a b b' nd.1 nd.2 hc hb'
        exact ⟨p1, p2, p3, p4⟩) _ hn b c h
    refine ⟨h1, h2, h3, fun n hn' => ?_, fun nd hnd => ⟨?_, ?_⟩⟩
    · rw [h4 n (fun hm => hn' (by
        rw [List.mem_map] at hm ⊢
        obtain ⟨x, hx, he⟩ := hm
        exact ⟨x, (List.mem_filter.1 hx).1, he⟩)), hb]
    · rintro (hskip | hi)
      · exact absurd hskip hk
      · rw [h4 nd.1, hb]
        intro hm
        rw [List.mem_map] at hm
        obtain ⟨x, hx, he⟩ := hm
        have hxe := List.inj_on_of_nodup_map hs (List.mem_filter.1 hx).1 hnd he
        rw [hxe] at hx
        simp [hi] at hx
    · intro _ hi
      obtain ⟨b1, b2, e1, e2, e3, e4⟩ := h5 nd (List.mem_filter.2 ⟨hnd, hi⟩)
      obtain ⟨-, -, -, -, x, q1, q2, q3, q4⟩ := addDataset_ok E a b1 b2 nd.1 nd.2 hc e1
      exact ⟨x, by rw [e4, q1], by rw [← e2]; exact q2, q3, q4⟩

/-- The container after the copy of datasets. -/
theorem copies_ok (E : Env α β V Ty) (axes : List String) (spec : List (String × DSpec Ty)) (a : Args α β V)
    (b c : Box α β V) (hs : (spec.map (·.1)).Nodup) (hc : a.comm.rank < a.comm.size)
    (hb : ∀ nd ∈ spec, ∀ x, b.dsets nd.1 = some x → Specified b.maps a.distributed a.comm nd.2 x ∧ x.attrs = fun _ => none)
    (h : copyDsets E axes spec a b = .ok c) :
    c.maps = b.maps ∧ c.mapAttrs = b.mapAttrs ∧ c.attrs = b.attrs ∧
    (∀ n, n ∉ spec.map (·.1) → c.dsets n = b.dsets n) ∧
    ∀ nd ∈ spec,
      ((∀ src sd, a.dsetsSrc = some src → src.dsets nd.1 = some sd → ¬ ToCopy axes a.kw sd) →
        c.dsets nd.1 = b.dsets nd.1) ∧
      (∀ src sd, a.dsetsSrc = some src → src.dsets nd.1 = some sd → ToCopy axes a.kw sd →
        ∃ x, c.dsets nd.1 = some x ∧ Specified b.maps a.distributed a.comm nd.2 x ∧ (x.attrs = fun _ => none) ∧
          (SameLayout b.maps a.distributed a.comm nd.2 sd.data → Holds (E.cast nd.2.ty) a.comm sd.data x.data)) := by
  unfold copyDsets at h
  cases hsrc : a.dsetsSrc with
  | none =>
    rw [hsrc] at h
    obtain rfl := Except.ok.inj h
    simp
  | some src =>
    rw [hsrc] at h
    simp only at h
    obtain ⟨h1, h2, h3, h4, h5⟩ := fold_local _ (fun b nd b' hb' => by
        obtain ⟨p1, p2, p3, p4, -⟩ := copyDset_ok E a axes src b b' nd hc hb'
        exact ⟨p1, p2, p3, p4⟩) _ hs b c h
    refine ⟨h1, h2, h3, h4, fun nd hnd => ?_⟩
    obtain ⟨b1, b2, e1, e2, e3, e4⟩ := h5 nd hnd
    obtain ⟨-, -, -, -, q1, q2⟩ := copyDset_ok E a axes src b1 b2 nd hc e1
    refine ⟨fun hno => ?_, fun src' sd hs' hsd hT => ?_⟩
    · rw [e4, q1 (fun sd hsd => hno src sd rfl hsd), e3]
    · obtain rfl := Option.some.inj hs'
      obtain ⟨x, x1, x2, x3, x4⟩ := q2 sd hsd hT (fun x hx => by
        rw [e2]; exact hb nd hnd x (by rw [← e3]; exact hx))
      rw [e2] at x2 x4
      exact ⟨x, by rw [e4]; exact x1, x2, x3, x4⟩

/-- The attributes leave everything else as it is. -/
theorem copyAll_rest (E : Env α β V Ty) (spec : List (String × DSpec Ty)) (a : Args α β V) (b : Box α β V) :
    (copyAllAttrs E spec a b).maps = b.maps ∧ (copyAllAttrs E spec a b).mapAttrs = b.mapAttrs ∧
    ∀ n, ((copyAllAttrs E spec a b).dsets n).map (fun x => (x.data, x.axis)) =
      (b.dsets n).map (fun x => (x.data, x.axis)) := by
  unfold copyAllAttrs
  cases a.attrsSrc with
  | none => exact ⟨rfl, rfl, fun _ => rfl⟩
  | some src =>
    refine ⟨rfl, rfl, fun n => ?_⟩
    simp only [copyAttrs]
    split
    · cases hb : b.dsets n with
      | none => simp
      | some d =>
        cases src.dsets n with
        | none => simp
        | some s => simp
    · rfl

/-- The attributes of datasets. -/
theorem copyAll_attrs (E : Env α β V Ty) (spec : List (String × DSpec Ty)) (a : Args α β V) (b : Box α β V)
    (name : String) (x : Dset α V) (hn : name ∈ spec.map (·.1)) (h : b.dsets name = some x)
    (hx : x.attrs = fun _ => none) :
    ∃ y, (copyAllAttrs E spec a b).dsets name = some y ∧ y.data = x.data ∧ y.axis = x.axis ∧
      ∀ k, y.attrs k = ((a.attrsSrc.bind (fun s => s.dsets name)).bind (fun s => s.attrs k)).map E.conv := by
  unfold copyAllAttrs
  cases a.attrsSrc with
  | none => exact ⟨x, h, rfl, rfl, by simp [hx]⟩
  | some src =>
    simp only [copyAttrs, h, Option.bind_some]
    rw [if_pos (by simpa using hn)]
    cases hs : src.dsets name with
    | none => exact ⟨x, rfl, rfl, rfl, by simp [hx]⟩
    | some s =>
      refine ⟨_, rfl, rfl, rfl, fun k => ?_⟩
      simp only [copyattrs, hx, Option.bind_some]
      cases s.attrs k <;> rfl

/-- None of the later stages changes the axes. -/
theorem construct_maps (E : Env α β V Ty) (axes : List String) (spec : List (String × DSpec Ty)) (a : Args α β V)
    (b1 b2 b3 : Box α β V) (hs : (spec.map (·.1)).Nodup) (hc : a.comm.rank < a.comm.size)
    (p1 : b1.dsets = fun _ => none) (h2 : initDsets E spec a b1 = .ok b2) (h3 : copyDsets E axes spec a b2 = .ok b3) :
    (copyAllAttrs E spec a b3).maps = b1.maps := by
  obtain ⟨q1, q2, q3, q4, q5⟩ := init_ok E spec a b1 b2 hs hc p1 h2
  have hb : ∀ nd ∈ spec, ∀ x, b2.dsets nd.1 = some x → Specified b2.maps a.distributed a.comm nd.2 x ∧ x.attrs = fun _ => none := by
    intro nd hnd x hx
    obtain ⟨r1, r2⟩ := q5 nd hnd
    rw [q1]
    cases hk : a.skip with
    | true => rw [r1 (.inl hk)] at hx; cases hx
    | false =>
      cases hi : nd.2.initialise with
      | false => rw [r1 (.inr hi)] at hx; cases hx
      | true =>
        obtain ⟨y, y1, y2, y3, -⟩ := r2 hk hi
        rw [y1] at hx
        obtain rfl := Option.some.inj hx
        exact ⟨y2, y3⟩
  obtain ⟨s1, s2, s3, s4, s5⟩ := copies_ok E axes spec a b2 b3 hs hc hb h3
  rw [(copyAll_rest E spec a b3).1, s1, q1]

/-! ### Axes -/

/-- C64: `axes_from`, `attrs_from` and `dsets_from`, where given, say what the axes, the attributes and the
datasets are taken from (`None`: nothing); otherwise it is `copy_from`. -/
theorem C64_sources (a : Args α β V) :
    (∀ s, a.axesFrom = some s → a.axesSrc = s) ∧ (a.axesFrom = none → a.axesSrc = a.copyFrom) ∧
    (∀ s, a.attrsFrom = some s → a.attrsSrc = s) ∧ (a.attrsFrom = none → a.attrsSrc = a.copyFrom) ∧
    (∀ s, a.dsetsFrom = some s → a.dsetsSrc = s) ∧ (a.dsetsFrom = none → a.dsetsSrc = a.copyFrom) := by
  unfold Args.axesSrc Args.attrsSrc Args.dsetsSrc
  refine ⟨?_, ?_, ?_, ?_, ?_, ?_⟩ <;> (intros; simp_all)

/-- C64: each axis of the class has the values asked for, and there are no other axes. -/
theorem C64_axes (E : Env α β V Ty) (axes : List String) (spec : List (String × DSpec Ty)) (a : Args α β V)
    (c : Box α β V) (hs : (spec.map (·.1)).Nodup) (hc : a.comm.rank < a.comm.size)
    (h : construct E axes spec a = .ok c) :
    (∀ ax ∈ axes, ∃ m, c.maps ax = some m ∧ AxisIs E.lab a.kw a.axesSrc ax m.vals) ∧
    ∀ ax, ax ∉ axes → c.maps ax = none := by
  obtain ⟨b1, b2, b3, h1, h2, h3, rfl⟩ := (construct_stages E axes spec a c).1 h
  obtain ⟨p1, p2, p3, p4⟩ := axes_fold E a axes _ _ h1
  have hm : (copyAllAttrs E spec a b3).maps = b1.maps := construct_maps E axes spec a b1 b2 b3 hs hc p1 h2 h3
  rw [hm]
  exact ⟨p4, fun ax hax => (p3 ax hax).1⟩

/-! ### Datasets -/

/-- A dataset that is to be created because the class says so. -/
def Initial (skip : Bool) (d : DSpec Ty) : Prop := skip = false ∧ d.initialise = true

/-- C64: the datasets. Those that are initialised, or copied from another container, are there, of the
shape their axes give, distributed as specified; the others are not. A copied dataset holds the elements
of the source if that has the same layout; a new one that is not distributed is zero. -/
theorem C64_datasets_partial (E : Env α β V Ty) (axes : List String) (spec : List (String × DSpec Ty))
    (a : Args α β V) (c : Box α β V) (hs : (spec.map (·.1)).Nodup) (hc : a.comm.rank < a.comm.size)
    (h : construct E axes spec a = .ok c) :
    (∀ n, n ∉ spec.map (·.1) → c.dsets n = none) ∧
    ∀ nd ∈ spec,
      ((c.dsets nd.1).isSome = true ↔ Initial a.skip nd.2 ∨
        ∃ src sd, a.dsetsSrc = some src ∧ src.dsets nd.1 = some sd ∧ ToCopy axes a.kw sd) ∧
      ∀ x, c.dsets nd.1 = some x →
        Specified c.maps a.distributed a.comm nd.2 x ∧
        (∀ src sd, a.dsetsSrc = some src → src.dsets nd.1 = some sd → ToCopy axes a.kw sd →
          SameLayout c.maps a.distributed a.comm nd.2 sd.data → Holds (E.cast nd.2.ty) a.comm sd.data x.data) ∧
        ((∀ src sd, a.dsetsSrc = some src → src.dsets nd.1 = some sd → ¬ ToCopy axes a.kw sd) →
          ∀ A, x.data = .common A → ∀ i, A.val i = E.zero) ∧
        ∀ k, x.attrs k = ((a.attrsSrc.bind (fun s => s.dsets nd.1)).bind (fun s => s.attrs k)).map E.conv := by
  obtain ⟨b1, b2, b3, h1, h2, h3, rfl⟩ := (construct_stages E axes spec a c).1 h
  obtain ⟨p1, p2, p3, p4⟩ := axes_fold E a axes _ _ h1
  obtain ⟨q1, q2, q3, q4, q5⟩ := init_ok E spec a b1 b2 hs hc p1 h2
  have hb : ∀ nd ∈ spec, ∀ x, b2.dsets nd.1 = some x → Initial a.skip nd.2 ∧
      Specified b2.maps a.distributed a.comm nd.2 x ∧ (x.attrs = fun _ => none) ∧
      ∀ A, x.data = .common A → ∀ i, A.val i = E.zero := by
    intro nd hnd x hx
    obtain ⟨r1, r2⟩ := q5 nd hnd
    rw [q1]
    cases hk : a.skip with
    | true => rw [r1 (.inl hk)] at hx; cases hx
    | false =>
      cases hi : nd.2.initialise with
      | false => rw [r1 (.inr hi)] at hx; cases hx
      | true =>
        obtain ⟨y, y1, y2, y3, y4⟩ := r2 hk hi
        rw [y1] at hx
        obtain rfl := Option.some.inj hx
        exact ⟨⟨rfl, hi⟩, y2, y3, y4⟩
  obtain ⟨s1, s2, s3, s4, s5⟩ := copies_ok E axes spec a b2 b3 hs hc
    (fun nd hnd x hx => ⟨(hb nd hnd x hx).2.1, (hb nd hnd x hx).2.2.1⟩) h3
  obtain ⟨t1, t2, t3⟩ := copyAll_rest E spec a b3
  refine ⟨fun n hn => ?_, fun nd hnd => ?_⟩
  · have := t3 n
    rw [s4 n hn, q4 n hn] at this
    simpa using this
  obtain ⟨u1, u2⟩ := s5 nd hnd
  have hmem : nd.1 ∈ spec.map (·.1) := List.mem_map_of_mem hnd
  have hiso : ((copyAllAttrs E spec a b3).dsets nd.1).isSome = (b3.dsets nd.1).isSome := by
    have := congrArg Option.isSome (t3 nd.1)
    simpa using this
  by_cases hcp : ∃ src sd, a.dsetsSrc = some src ∧ src.dsets nd.1 = some sd ∧ ToCopy axes a.kw sd
  · obtain ⟨src, sd, g1, g2, g3⟩ := hcp
    obtain ⟨x3, e1, e2, e3, e4⟩ := u2 src sd g1 g2 g3
    obtain ⟨y, y1, y2, y3, y4⟩ := copyAll_attrs E spec a b3 nd.1 x3 hmem e1 e3
    refine ⟨?_, fun x hx => ?_⟩
    · rw [y1]
      simp only [Option.isSome_some, true_iff]
      exact .inr ⟨src, sd, g1, g2, g3⟩
    · rw [y1] at hx
      obtain rfl := Option.some.inj hx
      rw [t1, s1]
      refine ⟨?_, fun src' sd' g1' g2' g3' hL => ?_, fun hno => absurd g3 (hno src sd g1 g2), y4⟩
      · obtain ⟨v1, v2⟩ := e2
        exact ⟨by rw [y3]; exact v1, by rw [y2]; exact v2⟩
      · rw [g1] at g1'
        obtain rfl := Option.some.inj g1'
        rw [g2] at g2'
        obtain rfl := Option.some.inj g2'
        rw [y2]
        exact e4 hL
  · have hno : ∀ src sd, a.dsetsSrc = some src → src.dsets nd.1 = some sd → ¬ ToCopy axes a.kw sd :=
      fun src sd g1 g2 g3 => hcp ⟨src, sd, g1, g2, g3⟩
    have hu := u1 hno
    refine ⟨?_, fun x hx => ?_⟩
    · rw [hiso, hu]
      constructor
      · intro hi
        obtain ⟨x, hx⟩ := Option.isSome_iff_exists.1 hi
        exact .inl (hb nd hnd x hx).1
      · rintro (hi | hi)
        · obtain ⟨x, hx, -⟩ := (q5 nd hnd).2 hi.1 hi.2
          rw [hx]; rfl
        · exact absurd hi hcp
    · have hi : (b3.dsets nd.1).isSome = true := by rw [← hiso, hx]; rfl
      obtain ⟨x3, hx3⟩ := Option.isSome_iff_exists.1 hi
      obtain ⟨-, w2, w3, w4⟩ := hb nd hnd x3 (by rw [← hu]; exact hx3)
      obtain ⟨y, y1, y2, y3, y4⟩ := copyAll_attrs E spec a b3 nd.1 x3 hmem hx3 w3
      rw [y1] at hx
      obtain rfl := Option.some.inj hx
      rw [t1, s1]
      refine ⟨⟨by rw [y3]; exact w2.1, by rw [y2]; exact w2.2⟩, fun src sd g1 g2 g3 => absurd g3 (hno src sd g1 g2),
        fun _ => by rw [y2]; exact w4, y4⟩

/-! ### Attributes -/

/-- The attributes an axis should have: those of the axis it was copied from. -/
def axisAttr (E : Env α β V Ty) (a : Args α β V) (ax k : String) : Option V :=
  if (a.kw ax).isSome then none else (a.axesSrc.bind (fun s => s.mapAttrs ax k)).map E.conv

theorem axes_attrs (E : Env α β V Ty) (a : Args α β V) (axes : List String) (b c : Box α β V)
    (hb : ∀ ax, b.mapAttrs ax = (fun _ => none) ∨ b.mapAttrs ax = axisAttr E a ax)
    (h : axes.foldlM (addAxis E a) b = .ok c) :
    ∀ ax, c.mapAttrs ax = if ax ∈ axes then axisAttr E a ax else b.mapAttrs ax := by
  induction axes generalizing b with
  | nil =>
    obtain rfl := Except.ok.inj h
    simp
  | cons x axes ih =>
    rw [List.foldlM_cons] at h
    cases h1 : addAxis E a b x with
    | error e => rw [h1] at h; cases h
    | ok b' =>
      rw [h1] at h
      have hb' : ∀ ax, b'.mapAttrs ax = if ax = x then axisAttr E a ax else b.mapAttrs ax := by
        intro ax
        unfold addAxis at h1
        have hsome : ∀ v, a.kw x = some v → b'.mapAttrs = b.mapAttrs →
            b'.mapAttrs ax = if ax = x then axisAttr E a ax else b.mapAttrs ax := by
          intro v hv hbb
          rw [hbb]
          by_cases hax : ax = x
          · rw [if_pos hax]
            have ht : axisAttr E a ax = fun _ => none := by
              funext k; rw [hax]; simp [axisAttr, hv]
            rcases hb ax with hz | hz
            · rw [hz, ht]
            · exact hz
          · rw [if_neg hax]
        cases hk : a.kw x with
        | some v =>
          cases v with
          | int n => rw [hk] at h1; exact hsome _ hk (by rw [← Except.ok.inj h1])
          | arr m => rw [hk] at h1; exact hsome _ hk (by rw [← Except.ok.inj h1])
          | list l => rw [hk] at h1; cases h1
          | none => rw [hk] at h1; cases h1
        | none =>
          rw [hk] at h1
          simp only at h1
          cases hs : a.axesSrc with
          | none => rw [hs] at h1; cases h1
          | some src =>
            rw [hs] at h1
            simp only at h1
            cases hm : src.maps x with
            | none => rw [hm] at h1; cases h1
            | some m =>
              rw [hm] at h1
              rw [← Except.ok.inj h1]
              simp only
              by_cases hax : ax = x
              · subst hax
                rw [if_pos rfl, if_pos rfl]
                have ht : axisAttr E a ax = fun k => (src.mapAttrs ax k).map E.conv := by
                  funext k; simp [axisAttr, hk, hs]
                rw [ht]
                funext k
                simp only [copyattrs]
                cases hv : src.mapAttrs ax k with
                | some v => rfl
                | none =>
                  simp only [Option.map_none]
                  rcases hb ax with hz | hz
                  · rw [hz]
                  · rw [hz, ht]; simp only [hv, Option.map_none]
              · rw [if_neg hax, if_neg hax]
      intro ax
      rw [ih b' (fun ax' => ?_) h ax, hb' ax]
      · by_cases h1' : ax ∈ axes
        · simp [h1']
        · by_cases h2' : ax = x <;> simp [h1', h2']
      · rw [hb' ax']
        split
        · exact .inr rfl
        · exact hb ax'

/-- The attributes the container itself should have: those of the container they are taken from, with the
name of the class put right. -/
def rootAttr (E : Env α β V Ty) (src : String → Option V) (k : String) : Option V :=
  if k = "__memh5_subclass" then (src k).map (fun v => if E.truthy (E.conv v) then E.clspath else E.conv v)
  else (src k).map E.conv

/-- C64: the attributes of the container and of its axes. Those of the datasets are in
`C64_datasets_partial`. -/
theorem C64_attributes (E : Env α β V Ty) (axes : List String) (spec : List (String × DSpec Ty)) (a : Args α β V)
    (c : Box α β V) (hs : (spec.map (·.1)).Nodup) (hc : a.comm.rank < a.comm.size)
    (h : construct E axes spec a = .ok c) :
    (∀ k, c.attrs k = a.attrsSrc.bind (fun s => rootAttr E s.attrs k)) ∧
    ∀ ax k, c.mapAttrs ax k = if ax ∈ axes then axisAttr E a ax k else none := by
  obtain ⟨b1, b2, b3, h1, h2, h3, rfl⟩ := (construct_stages E axes spec a c).1 h
  obtain ⟨p1, p2, p3, p4⟩ := axes_fold E a axes _ _ h1
  obtain ⟨q1, q2, q3, q4, q5⟩ := init_ok E spec a b1 b2 hs hc p1 h2
  have hb : ∀ nd ∈ spec, ∀ x, b2.dsets nd.1 = some x → Specified b2.maps a.distributed a.comm nd.2 x ∧ x.attrs = fun _ => none := by
    intro nd hnd x hx
    obtain ⟨r1, r2⟩ := q5 nd hnd
    rw [q1]
    cases hk : a.skip with
    | true => rw [r1 (.inl hk)] at hx; cases hx
    | false =>
      cases hi : nd.2.initialise with
      | false => rw [r1 (.inr hi)] at hx; cases hx
      | true =>
        obtain ⟨y, y1, y2, y3, -⟩ := r2 hk hi
        rw [y1] at hx
        obtain rfl := Option.some.inj hx
        exact ⟨y2, y3⟩
  obtain ⟨s1, s2, s3, s4, s5⟩ := copies_ok E axes spec a b2 b3 hs hc hb h3
  refine ⟨fun k => ?_, fun ax k => ?_⟩
  · have hz : b3.attrs = fun _ => none := by rw [s3, q3, p2]; rfl
    unfold copyAllAttrs
    cases a.attrsSrc with
    | none => simp [hz]
    | some src =>
      have hca : ∀ k, copyattrs E src.attrs b3.attrs k = (src.attrs k).map E.conv := by
        intro k
        simp only [copyattrs, hz]
        cases src.attrs k <;> rfl
      simp only [copyAttrs, Option.bind_some, rootAttr]
      rw [hca "__memh5_subclass"]
      cases hv : src.attrs "__memh5_subclass" with
      | none =>
        simp only [Option.map_none]
        rw [hca k]
        split
        · next hk => rw [hk, hv]; rfl
        · rfl
      | some v =>
        simp only [Option.map_some]
        by_cases hk : k = "__memh5_subclass"
        · subst hk
          rw [if_pos rfl, hv]
          by_cases ht : E.truthy (E.conv v) = true
          · rw [if_pos ht, put_self]; simp [ht]
          · rw [if_neg ht, hca, hv]; simp [ht]
        · rw [if_neg hk]
          by_cases ht : E.truthy (E.conv v) = true
          · rw [if_pos ht, put_ne _ _ hk, hca]
          · rw [if_neg ht, hca]
  · rw [(copyAll_rest E spec a b3).2.1, s2, q2,
      axes_attrs E a axes Box.empty b1 (fun _ => .inl rfl) h1 ax]
    split <;> rfl

/-! ### What is accepted -/

/-- C64: the constructor accepts its arguments if each axis is defined, each dataset that is wanted has
axes that the class has, one of which it can be distributed over, and each dataset to be copied has the
layout of the specification. -/
theorem C64_accepts (E : Env α β V Ty) (axes : List String) (spec : List (String × DSpec Ty)) (a : Args α β V)
    (hs : (spec.map (·.1)).Nodup) (hc : a.comm.rank < a.comm.size)
    (hax : ∀ ax ∈ axes, ∃ l, AxisIs E.lab a.kw a.axesSrc ax l)
    (hsp : ∀ nd ∈ spec, (∀ s, AxisRef.name s ∈ nd.2.axes → s ∈ axes) ∧ nd.2.axes ≠ [] ∧
      ∀ x, nd.2.distAxis = some x → x ∈ nd.2.axes)
    (hcp : ∀ src sd, a.dsetsSrc = some src → ∀ nd ∈ spec, src.dsets nd.1 = some sd →
      sd.axis ≠ none ∧ (ToCopy axes a.kw sd → ∀ maps : String → Option (AxisMap β),
        (∀ ax ∈ axes, ∃ m, maps ax = some m ∧ AxisIs E.lab a.kw a.axesSrc ax m.vals) →
        SameLayout maps a.distributed a.comm nd.2 sd.data)) :
    ∃ c, construct E axes spec a = .ok c := by
  obtain ⟨b1, h1⟩ := axes_ok E a axes Box.empty hax
  obtain ⟨p1, p2, p3, p4⟩ := axes_fold E a axes _ _ h1
  have hadd : ∀ b : Box α β V, b.maps = b1.maps → ∀ nd ∈ spec, ∃ b', addDataset E a b nd.1 nd.2 = .ok b' := by
    intro b hb nd hnd
    obtain ⟨g1, g2, g3⟩ := hsp nd hnd
    have hL : ∃ shape, Lengths b.maps nd.2.axes shape := by
      unfold Lengths
      rw [hb]
      clear g2 g3
      generalize nd.2.axes = l at g1
      induction l with
      | nil => exact ⟨[], .nil⟩
      | cons x l ih =>
        obtain ⟨sh, hsh⟩ := ih (fun s hs' => g1 s (List.mem_cons_of_mem _ hs'))
        cases x with
        | name s =>
          obtain ⟨m, hm, -⟩ := p4 s (g1 s List.mem_cons_self)
          exact ⟨m.vals.length :: sh, .cons ⟨m, hm, rfl⟩ hsh⟩
        | size n => exact ⟨n :: sh, .cons rfl hsh⟩
    obtain ⟨shape, hL⟩ := hL
    have hD : ∃ k, DistAt nd.2 k := by
      have : ∃ k, distAxisOf nd.2 = .ok k := by
        unfold distAxisOf
        obtain ⟨y, l, hyl⟩ := List.exists_cons_of_ne_nil g2
        have hx : ∃ x, nd.2.distAxis.or nd.2.axes.head? = some x ∧ x ∈ nd.2.axes := by
          cases hd : nd.2.distAxis with
          | none => exact ⟨y, by simp [hyl], by simp [hyl]⟩
          | some x => exact ⟨x, by simp, g3 x hd⟩
        obtain ⟨x, hx, hm⟩ := hx
        rw [hx]
        simp only
        cases hi : nd.2.axes.idxOf? x with
        | some k => exact ⟨k, rfl⟩
        | none => rw [List.idxOf?_eq_none_iff] at hi; exact absurd hm hi
      obtain ⟨k, hk⟩ := this
      exact ⟨k, (distAt_iff nd.2 k).1 hk⟩
    obtain ⟨k, hk⟩ := hD
    exact addDataset_accepts E a b nd.1 nd.2 shape hL k hk
  have h2 : ∃ b2, initDsets E spec a b1 = .ok b2 := by
    unfold initDsets
    split
    · exact ⟨_, rfl⟩
    · refine fold_ok (fun b nd => addDataset E a b nd.1 nd.2) (fun b nd b' hb' => ?_) _
        (hs.sublist (List.filter_sublist.map _)) b1 (fun nd hnd b hb _ => hadd b hb nd (List.mem_filter.1 hnd).1)
      obtain ⟨r1, r2, r3, r4, -⟩ := addDataset_ok E a b b' nd.1 nd.2 hc hb'
      exact ⟨r1, r2, r3, r4⟩
  obtain ⟨b2, h2⟩ := h2
  obtain ⟨q1, q2, q3, q4, q5⟩ := init_ok E spec a b1 b2 hs hc p1 h2
  have hb : ∀ nd ∈ spec, ∀ x, b2.dsets nd.1 = some x → Specified b2.maps a.distributed a.comm nd.2 x := by
    intro nd hnd x hx
    obtain ⟨r1, r2⟩ := q5 nd hnd
    rw [q1]
    cases hk : a.skip with
    | true => rw [r1 (.inl hk)] at hx; cases hx
    | false =>
      cases hi : nd.2.initialise with
      | false => rw [r1 (.inr hi)] at hx; cases hx
      | true =>
        obtain ⟨y, y1, y2, -⟩ := r2 hk hi
        rw [y1] at hx
        obtain rfl := Option.some.inj hx
        exact y2
  have h3 : ∃ b3, copyDsets E axes spec a b2 = .ok b3 := by
    unfold copyDsets
    cases hsrc : a.dsetsSrc with
    | none => exact ⟨_, rfl⟩
    | some src =>
      simp only
      refine fold_ok _ (fun b nd b' hb' => ?_) _ hs b2 (fun nd hnd b hbm hbd => ?_)
      · obtain ⟨r1, r2, r3, r4, -⟩ := copyDset_ok E a axes src b b' nd hc hb'
        exact ⟨r1, r2, r3, r4⟩
      · unfold copyDset
        cases hsd : src.dsets nd.1 with
        | none => exact ⟨_, rfl⟩
        | some sd =>
          obtain ⟨w1, w2⟩ := hcp src sd hsrc nd hnd hsd
          simp only
          cases hA : sd.axis with
          | none => exact absurd hA w1
          | some axs =>
            simp only
            split
            · exact ⟨_, rfl⟩
            · next hany =>
              have hT : ToCopy axes a.kw sd := (toCopy_iff axes a.kw sd axs hA).2 (by simpa using hany)
              have hbb : b.maps = b1.maps := by rw [hbm, q1]
              have hSL := w2 hT b.maps (by rw [hbb]; exact p4)
              have hen : ∃ b', ensureDset E a b nd = .ok b' ∧ ∃ x, b'.dsets nd.1 = some x ∧
                  Specified b.maps a.distributed a.comm nd.2 x := by
                unfold ensureDset
                split
                · obtain ⟨b', hb'⟩ := hadd b hbb nd hnd
                  obtain ⟨-, -, -, -, x, x1, x2, -⟩ := addDataset_ok E a b b' nd.1 nd.2 hc hb'
                  exact ⟨b', hb', x, x1, x2⟩
                · next hn =>
                  cases hx : b.dsets nd.1 with
                  | none => simp [hx] at hn
                  | some x => exact ⟨b, rfl, x, hx, by rw [hbm]; exact hb nd hnd x (by rw [← hbd]; exact hx)⟩
              obtain ⟨b', e1, x, e2, e3⟩ := hen
              obtain ⟨y, y1, -, -⟩ := assign_same (E.cast nd.2.ty) b.maps a.distributed a.comm nd.2 x sd.data e3 hSL
              rw [e1]
              simp only [fillDset, e2, y1]
              exact ⟨_, rfl⟩
  obtain ⟨b3, h3⟩ := h3
  exact ⟨_, (construct_stages E axes spec a _).2 ⟨b1, b2, b3, h1, h2, h3, rfl⟩⟩

/-- C64: an axis without definition is refused, with a `RuntimeError`. -/
theorem C64_refused (E : Env α β V Ty) (axes : List String) (spec : List (String × DSpec Ty)) (a : Args α β V)
    (hl : ∀ ax ∈ axes, ∀ l, a.kw ax ≠ some (.list l))
    (hax : ∃ ax ∈ axes, ∀ l, ¬ AxisIs E.lab a.kw a.axesSrc ax l) :
    construct E axes spec a = .error .runtimeError := by
  have hstep : ∀ b, axes.foldlM (addAxis E a) b = .error .runtimeError := by
    clear spec
    induction axes with
    | nil => obtain ⟨ax, hm, -⟩ := hax; cases hm
    | cons x axes ih =>
      intro b
      rw [List.foldlM_cons]
      by_cases hx : ∃ l, AxisIs E.lab a.kw a.axesSrc x l
      · have hax' : ∃ ax ∈ axes, ∀ l, ¬ AxisIs E.lab a.kw a.axesSrc ax l := by
          obtain ⟨ax, hm, hn⟩ := hax
          rcases List.mem_cons.1 hm with rfl | hm
          · obtain ⟨l, hl'⟩ := hx; exact absurd hl' (hn l)
          · exact ⟨ax, hm, hn⟩
        obtain ⟨b', hb'⟩ := axes_ok E a [x] b (by simpa using hx)
        rw [List.foldlM_cons] at hb'
        cases h1 : addAxis E a b x with
        | error e => rw [h1] at hb'; cases hb'
        | ok b1 => exact ih (fun ax hm => hl ax (List.mem_cons_of_mem _ hm)) hax' b1
      · have h1 : addAxis E a b x = .error .runtimeError := by
          unfold addAxis
          cases hk : a.kw x with
          | some v =>
            cases v with
            | int n => exact absurd ⟨_, AxisIs.count n hk⟩ hx
            | arr m => exact absurd ⟨_, AxisIs.given m hk⟩ hx
            | list l => exact absurd hk (hl x List.mem_cons_self l)
            | none => rfl
          | none =>
            simp only
            cases hs : a.axesSrc with
            | none => rfl
            | some src =>
              simp only
              cases hm : src.maps x with
              | none => rfl
              | some m => exact absurd ⟨_, AxisIs.copied src m hk hs hm⟩ hx
        rw [h1]
        rfl
  unfold construct
  rw [hstep]
  rfl

/-- C64: a dataset that is to be made, with an axis that the class does not have, is refused with a `RuntimeError`;
here every dataset of the class has an axis it can be distributed over. -/
theorem C64_unknown_axis (E : Env α β V Ty) (axes : List String) (spec : List (String × DSpec Ty)) (a : Args α β V)
    (hc : a.comm.rank < a.comm.size) (hsk : a.skip = false)
    (hax : ∀ ax ∈ axes, ∃ l, AxisIs E.lab a.kw a.axesSrc ax l)
    (hd : ∀ nd ∈ spec, ∃ k, DistAt nd.2 k)
    (hbad : ∃ nd ∈ spec, nd.2.initialise = true ∧ ∃ s, AxisRef.name s ∈ nd.2.axes ∧ s ∉ axes) :
    construct E axes spec a = .error .runtimeError := by
  obtain ⟨b1, h1⟩ := axes_ok E a axes Box.empty hax
  obtain ⟨-, -, p3, -⟩ := axes_fold E a axes _ _ h1
  have hno : ∀ s, s ∉ axes → b1.maps s = none := fun s hs => by rw [(p3 s hs).1]; rfl
  have hlen : ∀ (b : Box α β V) (l : List AxisRef) e, l.mapM (axisLen b) = .error e → e = .runtimeError := by
    intro b l
    induction l with
    | nil => intro e h; cases h
    | cons x l ih =>
      intro e h
      rw [List.mapM_cons] at h
      cases h1 : axisLen b x with
      | error e' =>
        rw [h1] at h
        obtain rfl := Except.error.inj h
        cases x with
        | size n => cases h1
        | name s =>
          simp only [axisLen] at h1
          cases hm : b.maps s with
          | some m => rw [hm] at h1; cases h1
          | none => rw [hm] at h1; exact (Except.error.inj h1).symm
      | ok n =>
        rw [h1] at h
        cases h2 : l.mapM (axisLen b) with
        | error e' =>
          rw [h2] at h
          obtain rfl := Except.error.inj h
          exact ih _ h2
        | ok r => rw [h2] at h; cases h
  have hadd : ∀ (b : Box α β V) nd e, nd ∈ spec → addDataset E a b nd.1 nd.2 = .error e → e = .runtimeError := by
    intro b nd e hnd h
    unfold addDataset at h
    cases h1 : nd.2.axes.mapM (axisLen b) with
    | error e' =>
      rw [h1] at h
      obtain rfl := Except.error.inj h
      exact hlen _ _ _ h1
    | ok r =>
      obtain ⟨k, hk⟩ := hd nd hnd
      rw [h1, (distAt_iff nd.2 k).2 hk] at h
      cases h
  have hfold : ∀ (l : List (String × DSpec Ty)) (b : Box α β V), (∀ nd ∈ l, nd ∈ spec) → b.maps = b1.maps →
      (∃ nd ∈ l, ∃ s, AxisRef.name s ∈ nd.2.axes ∧ s ∉ axes) →
      l.foldlM (fun b nd => addDataset E a b nd.1 nd.2) b = .error .runtimeError := by
    intro l
    induction l with
    | nil => rintro b - - ⟨nd, hm, -⟩; cases hm
    | cons x l ih =>
      rintro b hsub hb ⟨nd, hm, s, hs1, hs2⟩
      rw [List.foldlM_cons]
      cases h2 : addDataset E a b x.1 x.2 with
      | error e =>
        obtain rfl := hadd b x e (hsub x List.mem_cons_self) h2
        rfl
      | ok b' =>
        obtain ⟨q1, -, -, -, y, -, ⟨-, shape, hL, -⟩, -⟩ := addDataset_ok E a b b' x.1 x.2 hc h2
        refine ih b' (fun z hz => hsub z (List.mem_cons_of_mem _ hz)) (q1.trans hb) ⟨nd, ?_, s, hs1, hs2⟩
        rcases List.mem_cons.1 hm with rfl | hm
        · exfalso
          have : ∀ (l : List AxisRef) (sh : List Nat), Lengths b.maps l sh → AxisRef.name s ∈ l → ∃ m, b.maps s = some m := by
            intro l
            induction l with
            | nil => intro _ _ h; cases h
            | cons z l ih =>
              intro sh hL hz
              unfold Lengths at hL
              rw [List.forall₂_cons_left_iff] at hL
              obtain ⟨n, sh', e1, e2, -⟩ := hL
              rcases List.mem_cons.1 hz with rfl | hz
              · obtain ⟨m, hm, -⟩ := e1
                exact ⟨m, hm⟩
              · exact ih sh' e2 hz
          obtain ⟨m, hm⟩ := this _ _ hL hs1
          rw [hb, hno s hs2] at hm
          cases hm
        · exact hm
  obtain ⟨nd, hnd, hi, s, hs1, hs2⟩ := hbad
  unfold construct initDsets
  rw [h1, hsk]
  simp only [bind, Except.bind, Bool.false_eq_true, if_false]
  have := hfold (spec.filter (·.2.initialise)) b1 (fun z hz => (List.mem_filter.1 hz).1) rfl
    ⟨nd, List.mem_filter.2 ⟨hnd, hi⟩, s, hs1, hs2⟩
  rw [this]

/-! ### A container with two axes, copied from another on the second of two processes -/

section Cases

/-- Integers, memory that was not set holds 99, values are not converted. -/
def env : Env Int Nat Nat Unit :=
  { zero := 0, junk := fun _ _ => 99, cast := fun _ x => x, lab := id, conv := id, truthy := fun v => v != 0, clspath := 7 }

def freqTime : List String := ["freq", "time"]

/-- `vis` over both axes, distributed over the second; `gain` over frequency, not distributed; `flag` is
not created unless asked for. -/
def threeSets : List (String × DSpec Unit) :=
  [("vis", ⟨[.name "freq", .name "time"], (), true, none, some (.name "time")⟩),
   ("gain", ⟨[.name "freq"], (), true, some false, none⟩),
   ("flag", ⟨[.name "time"], (), false, some false, none⟩)]

/-- The global array of `vis`, with four times. -/
def visG : NArr Int := ⟨[2, 4], fun i => 10 * (i.getD 0 0) + i.getD 1 0⟩

/-- The second process of two holds the last two times... -/
def visLoc : MArr Int :=
  { arr := ⟨[2, 2], fun i => 10 * (i.getD 0 0) + (i.getD 1 0 + 2)⟩, gshape := [2, 4], axis := 1, lshape := [2, 2],
    loff := [0, 2], comm := ⟨0, 2, 1⟩ }

/-- A dataset over an axis that the class does not have. -/
example : construct env freqTime (threeSets ++ [("map", ⟨[.name "freq", .name "ra"], (), true, none, none⟩)])
    (⟨fun _ => some (.int 3), none, none, none, none, true, ⟨0, 2, 1⟩, false⟩ : Args Int Nat Nat) = .error .runtimeError :=
  C64_unknown_axis env freqTime _ _ (by decide) rfl (fun ax _ => ⟨_, AxisIs.count 3 rfl⟩)
    (by
      intro nd hnd
      simp only [threeSets, List.cons_append, List.nil_append, List.mem_cons, List.not_mem_nil, or_false] at hnd
      rcases hnd with rfl | rfl | rfl | rfl
      · exact ⟨1, (distAt_iff _ _).1 rfl⟩
      · exact ⟨0, (distAt_iff _ _).1 rfl⟩
      · exact ⟨0, (distAt_iff _ _).1 rfl⟩
      · exact ⟨0, (distAt_iff _ _).1 rfl⟩)
    ⟨("map", ⟨[.name "freq", .name "ra"], (), true, none, none⟩), by simp, rfl, "ra", by simp, by decide⟩

/-- The container to copy from. -/
def old : Box Int Nat Nat :=
  { maps := fun ax => if ax = "freq" then some ⟨[400, 800], some 1⟩ else if ax = "time" then some ⟨[5, 6, 7, 8], some 2⟩ else none
    mapAttrs := fun ax k => if ax = "freq" ∧ k = "unit" then some 3 else none
    dsets := fun n => if n = "vis" then some ⟨.dist visLoc, some ["freq", "time"], fun k => if k = "u" then some 4 else none⟩
      else if n = "flag" then some ⟨.common ⟨[4], fun i => 1 + i.getD 0 0⟩, some ["time"], fun _ => none⟩ else none
    attrs := fun k => if k = "__memh5_subclass" then some 2 else if k = "tag" then some 8 else none }

def copyArgs : Args Int Nat Nat :=
  { kw := fun _ => none, copyFrom := some old, axesFrom := none, attrsFrom := none, dsetsFrom := none, distributed := true,
    comm := ⟨0, 2, 1⟩, skip := false }

/-- The same, but with two new frequencies. -/
def newFreq : Args Int Nat Nat := { copyArgs with kw := fun ax => if ax = "freq" then some (.int 4) else none }

/-- What can be seen of a container: the first element of each dataset on this process. -/
def see (r : Except PyErr (Box Int Nat Nat)) (name : String) (i : List Nat) : Option (List Nat × Int) :=
  match r with
  | .ok b => (b.dsets name).map fun x => (x.data.loc.shape, x.data.loc.val i)
  | .error _ => none

example : see (construct env freqTime threeSets copyArgs) "vis" [1, 0] = some ([2, 2], 12) := by decide +kernel
example : see (construct env freqTime threeSets copyArgs) "flag" [2] = some ([4], 3) := by decide +kernel
example : see (construct env freqTime threeSets copyArgs) "gain" [1] = some ([2], 0) := by decide +kernel
-- with new frequencies `vis` is not copied, `flag` still is
example : see (construct env freqTime threeSets newFreq) "vis" [1, 0] = some ([4, 2], 99) := by decide +kernel
example : see (construct env freqTime threeSets newFreq) "flag" [2] = some ([4], 3) := by decide +kernel

theorem visBlock : IsBlock visG 1 ⟨0, 2, 1⟩ visLoc := by
  refine ⟨by decide, by decide, rfl, rfl, rfl, by decide, by decide, by decide, fun i hi => ?_⟩
  have hl : visLoc.arr.shape = [2, 2] := rfl
  rw [hl] at hi
  match i, hi with
  | [x, y], hi =>
    have h1 : blockStart 4 2 1 = 2 := by decide
    simp [visG, visLoc, h1]

/-- The hypotheses of `C64_accepts` and so of the others can be met, with a distributed dataset that is
copied, a common one that is copied and one that is new. -/
theorem copyArgs_accepted : ∃ c, construct env freqTime threeSets copyArgs = .ok c := by
  apply C64_accepts
  · decide
  · decide
  · intro ax hax
    rcases List.mem_cons.1 hax with rfl | hax
    · exact ⟨_, .copied old ⟨[400, 800], some 1⟩ rfl rfl rfl⟩
    · rcases List.mem_cons.1 hax with rfl | hax
      · exact ⟨_, .copied old ⟨[5, 6, 7, 8], some 2⟩ rfl rfl rfl⟩
      · cases hax
  · intro nd hnd
    simp only [threeSets, List.mem_cons, List.not_mem_nil, or_false] at hnd
    rcases hnd with rfl | rfl | rfl <;> simp [freqTime]
  · intro src sd hsrc nd hnd hsd
    obtain rfl : old = src := Option.some.inj hsrc
    have hlen : ∀ maps : String → Option (AxisMap Nat),
        (∀ ax ∈ freqTime, ∃ m, maps ax = some m ∧ AxisIs env.lab copyArgs.kw copyArgs.axesSrc ax m.vals) →
        (∃ m, maps "freq" = some m ∧ m.vals.length = 2) ∧ ∃ m, maps "time" = some m ∧ m.vals.length = 4 := by
      intro maps hm
      obtain ⟨m1, e1, a1⟩ := hm "freq" (by decide)
      obtain ⟨m2, e2, a2⟩ := hm "time" (by decide)
      refine ⟨⟨m1, e1, ?_⟩, ⟨m2, e2, ?_⟩⟩
      · generalize m1.vals = l at a1
        cases a1 with
        | count n h => cases h
        | given m h => cases h
        | copied s m _ hs h =>
          obtain rfl : old = s := Option.some.inj hs
          obtain rfl : (⟨[400, 800], some 1⟩ : AxisMap Nat) = m := Option.some.inj h
          rfl
      · generalize m2.vals = l at a2
        cases a2 with
        | count n h => cases h
        | given m h => cases h
        | copied s m _ hs h =>
          obtain rfl : old = s := Option.some.inj hs
          obtain rfl : (⟨[5, 6, 7, 8], some 2⟩ : AxisMap Nat) = m := Option.some.inj h
          rfl
    simp only [threeSets, List.mem_cons, List.not_mem_nil, or_false] at hnd
    rcases hnd with rfl | rfl | rfl
    · obtain rfl := Option.some.inj hsd
      refine ⟨by simp, fun _ maps hm => ?_⟩
      obtain ⟨h1, h2⟩ := hlen maps hm
      refine ⟨[2, 4], .cons h1 (.cons h2 .nil), by simp, ?_⟩
      rw [if_pos ⟨rfl, by simp⟩]
      exact ⟨1, visLoc, visG, ⟨by simp, by simp, by simp⟩, rfl, rfl, visBlock⟩
    · cases hsd
    · obtain rfl := Option.some.inj hsd
      refine ⟨by simp, fun _ maps hm => ?_⟩
      obtain ⟨h1, h2⟩ := hlen maps hm
      refine ⟨[4], .cons h2 .nil, by simp, ?_⟩
      rw [if_neg (by simp)]
      exact ⟨_, rfl, rfl⟩

-- `vis` is copied: neither of its axes was given
example : ToCopy freqTime copyArgs.kw (⟨.dist visLoc, some ["freq", "time"], fun _ => none⟩ : Dset Int Nat) :=
  ⟨_, rfl, fun _ _ _ => rfl⟩
example : ¬ ToCopy freqTime newFreq.kw (⟨.dist visLoc, some ["freq", "time"], fun _ => none⟩ : Dset Int Nat) := by
  rintro ⟨axs, h, hx⟩
  obtain rfl := Option.some.inj h
  have := hx "freq" (by simp) (by decide)
  cases this

-- the class path replaces that of the source, other attributes stay
example : rootAttr env old.attrs "__memh5_subclass" = some 7 ∧ rootAttr env old.attrs "tag" = some 8 ∧
    axisAttr env copyArgs "freq" "unit" = some 3 ∧ axisAttr env newFreq "freq" "unit" = none := by decide +kernel

/-- An axis that is not defined anywhere. -/
example : construct env ["freq", "pol"] threeSets copyArgs = .error .runtimeError :=
  C64_refused env _ threeSets copyArgs (by simp [copyArgs]) ⟨"pol", by simp, by
    intro l h
    cases h with
    | count n h => cases h
    | given m h => cases h
    | copied s m _ hs h =>
      obtain rfl : old = s := Option.some.inj hs
      cases h⟩

/-! ### Where the property fails -/

/-- C64: with `skip_datasets` no dataset should be created, but those of `copy_from` are. -/
theorem C64_skip_violated : ¬ ∀ (E : Env Int Nat Nat Unit) axes spec a c, a.skip = true →
    construct E axes spec a = .ok c → ∀ n, c.dsets n = none := by
  intro h
  have hs : see (construct env freqTime threeSets { copyArgs with skip := true }) "vis" [1, 0] = some ([2, 2], 12) := by
    decide +kernel
  cases hc : construct env freqTime threeSets { copyArgs with skip := true } with
  | error e => rw [hc] at hs; cases hs
  | ok c =>
    rw [hc] at hs
    have := h env freqTime threeSets _ c rfl hc "vis"
    simp only [see, this] at hs
    cases hs

/-- A class with one dataset along one axis. -/
def oneSet (dist : Option Bool) : List (String × DSpec Unit) := [("x", ⟨[.name "t"], (), true, dist, none⟩)]

/-- A container with `n` times that holds the dataset `x`. -/
def holder (n : Nat) (x : Data Int) : Box Int Nat Nat :=
  { maps := fun ax => if ax = "t" then some ⟨List.range n, some 1⟩ else none, mapAttrs := fun _ _ => none,
    dsets := fun k => if k = "x" then some ⟨x, some ["t"], fun _ => none⟩ else none, attrs := fun _ => none }

def from1 (distributed : Bool) (n : Nat) (x : Data Int) (c : Comm) : Args Int Nat Nat :=
  { kw := fun _ => none, copyFrom := some (holder n x), axesFrom := none, attrsFrom := none, dsetsFrom := none,
    distributed := distributed, comm := c, skip := false }

/-- Process `r` of two holds one element of a distributed array of two, namely `r`. -/
def half (r : Nat) : MArr Int :=
  { arr := ⟨[1], fun _ => r⟩, gshape := [2], axis := 0, lshape := [1], loff := [r], comm := ⟨0, 2, r⟩ }

/-- C64: a dataset copied from a container that has it distributed, into one that has it on all
processes, should be the whole dataset. On two processes the copy of `[0, 1]` is `[0, 0]` on the one and
`[1, 1]` on the other, without an error. -/
theorem C64_gather_violated :
    see (construct env ["t"] (oneSet none) (from1 false 2 (.dist (half 0)) ⟨0, 2, 0⟩)) "x" [1] = some ([2], 0) ∧
    see (construct env ["t"] (oneSet none) (from1 false 2 (.dist (half 1)) ⟨0, 2, 1⟩)) "x" [0] = some ([2], 1) := by
  decide +kernel

/-- These are blocks of the same array. -/
example : ∀ r, r < 2 → IsBlock (⟨[2], fun i => i.getD 0 0⟩ : NArr Int) 0 ⟨0, 2, r⟩ (half r) := by
  intro r hr
  refine ⟨by decide, hr, rfl, rfl, rfl, ?_, rfl, ?_, fun i hi => ?_⟩
  · rcases r with _ | _ | r
    · decide
    · decide
    · omega
  · rcases r with _ | _ | r
    · decide
    · decide
    · omega
  · have hl : (half r).arr.shape = [1] := rfl
    rw [hl] at hi
    match i, hi with
    | [x], hi =>
      have hx : x = 0 := by cases hi; omega
      subst hx
      rcases r with _ | _ | r
      · rfl
      · rfl
      · omega

/-- C64: the other way round, a dataset that all processes have in full should be copied block by block
into a distributed one; there is a `ValueError`. -/
theorem C64_scatter_violated :
    construct env ["t"] (oneSet none) (from1 true 4 (.common ⟨[4], fun i => i.getD 0 0⟩) ⟨0, 2, 0⟩) =
      .error .valueError := by
  rfl

/-- C64: a dataset whose axis has another length than the new container should not be copied; one of
length one is repeated. -/
theorem C64_length_violated :
    see (construct env ["t"] (oneSet (some false))
      { from1 true 1 (.common ⟨[1], fun _ => 5⟩) ⟨0, 1, 0⟩ with
        axesFrom := some (some (holder 3 (.common ⟨[3], fun _ => 0⟩))) }) "x" [2] = some ([3], 5) := by
  decide +kernel

/-- C64: a new dataset is zero where it is not distributed, but holds whatever was in the memory where it
is. -/
theorem C64_zero_violated : ¬ ∀ (E : Env Int Nat Nat Unit) axes spec a c, a.dsetsSrc = none →
    construct E axes spec a = .ok c → ∀ n x, c.dsets n = some x → ∀ i, InShape i x.data.loc.shape →
      x.data.loc.val i = E.zero := by
  intro h
  have hs : see (construct env ["t"] (oneSet none) { from1 true 4 (.dist (half 0)) ⟨0, 2, 0⟩ with dsetsFrom := some none })
      "x" [0] = some ([2], 99) := by decide +kernel
  cases hc : construct env ["t"] (oneSet none) { from1 true 4 (.dist (half 0)) ⟨0, 2, 0⟩ with dsetsFrom := some none } with
  | error e => rw [hc] at hs; cases hs
  | ok c =>
    rw [hc] at hs
    simp only [see] at hs
    cases hx : c.dsets "x" with
    | none => rw [hx] at hs; cases hs
    | some x =>
      rw [hx] at hs
      simp only [Option.map_some, Option.some.injEq, Prod.mk.injEq] at hs
      have := h env ["t"] (oneSet none) _ c rfl hc "x" x hx [0] (by rw [hs.1]; exact .cons (by decide) .nil)
      rw [this] at hs
      exact absurd hs.2 (by decide)

/-- C64: a list of values is not accepted for an axis. -/
theorem C64_list_violated :
    construct env ["t"] (oneSet none)
      { from1 true 3 (.dist (half 0)) ⟨0, 1, 0⟩ with kw := fun _ => some (.list [1, 2, 3]), copyFrom := none } =
        .error .attributeError := by
  rfl

/-- The dataset `x` is there and is not distributed. -/
def isCommon (r : Except PyErr (Box Int Nat Nat)) : Bool :=
  match r with
  | .ok b => match b.dsets "x" with
    | some ⟨.common _, _, _⟩ => true
    | _ => false
  | .error _ => false

/-- C64: `distributed = True` in a specification should make the dataset distributed; in a container that
is not, it has no effect. -/
theorem C64_forced_violated : ¬ ∀ (E : Env Int Nat Nat Unit) axes spec a c, (spec.map (·.1)).Nodup →
    construct E axes spec a = .ok c → ∀ nd ∈ spec, nd.2.distributed = some true → ∀ x, c.dsets nd.1 = some x →
      ∃ A, x.data = .dist A := by
  intro h
  have hs : see (construct env ["t"] (oneSet (some true)) { from1 false 4 (.dist (half 0)) ⟨0, 2, 0⟩ with dsetsFrom := some none })
      "x" [0] = some ([4], 0) := by decide +kernel
  have hk : isCommon (construct env ["t"] (oneSet (some true)) { from1 false 4 (.dist (half 0)) ⟨0, 2, 0⟩ with dsetsFrom := some none })
      = true := by decide +kernel
  cases hc : construct env ["t"] (oneSet (some true)) { from1 false 4 (.dist (half 0)) ⟨0, 2, 0⟩ with dsetsFrom := some none } with
  | error e => rw [hc] at hs; cases hs
  | ok c =>
    rw [hc] at hk
    cases hx : c.dsets "x" with
    | none => rw [hc] at hs; simp [see, hx] at hs
    | some x =>
      obtain ⟨A, hA⟩ := h env ["t"] (oneSet (some true)) _ c (by decide) hc _ List.mem_cons_self rfl x hx
      cases x with
      | mk d ax at' =>
        simp only at hA
        subst hA
        simp [isCommon, hx] at hk
end Cases

theorem axes_shared (E : Env α β V Ty) (a : Args α β V) (src : Box α β V) (hsrc : a.axesSrc = some src) (ax : String)
    (hkw : a.kw ax = none) (axes : List String) (b c : Box α β V) (hax : ax ∈ axes ∨ b.maps ax = src.maps ax)
    (h : axes.foldlM (addAxis E a) b = .ok c) : c.maps ax = src.maps ax := by
  induction axes generalizing b with
  | nil =>
    obtain rfl := Except.ok.inj h
    simpa using hax
  | cons x axes ih =>
    rw [List.foldlM_cons] at h
    cases h1 : addAxis E a b x with
    | error e => rw [h1] at h; cases h
    | ok b' =>
      rw [h1] at h
      refine ih b' ?_ h
      by_cases hx : x = ax
      · subst hx
        right
        unfold addAxis at h1
        rw [hkw, hsrc] at h1
        simp only at h1
        cases hm : src.maps x with
        | none => rw [hm] at h1; cases h1
        | some m =>
          rw [hm] at h1
          rw [← Except.ok.inj h1]
          exact put_self _ _ _
      · have h2 := (axes_fold E a [x] b b' (by rw [List.foldlM_cons, h1]; rfl)).2.2.1 ax (by simpa using fun e => hx e.symm)
        rw [h2.1]
        rcases hax with hax | hax
        · rcases List.mem_cons.1 hax with e | hax
          · exact absurd e.symm hx
          · exact .inl hax
        · exact .inr hax

/-- C64: an axis copied from another container is the same memory: a later change to the one changes the
other. -/
theorem C64_shared_violated (E : Env α β V Ty) (axes : List String) (spec : List (String × DSpec Ty)) (a : Args α β V)
    (c src : Box α β V) (hs : (spec.map (·.1)).Nodup) (hc : a.comm.rank < a.comm.size)
    (h : construct E axes spec a = .ok c) (hsrc : a.axesSrc = some src) (ax : String) (hax : ax ∈ axes)
    (hkw : a.kw ax = none) : ∃ m m', c.maps ax = some m ∧ src.maps ax = some m' ∧ m.buf = m'.buf := by
  obtain ⟨m, hm, -⟩ := (C64_axes E axes spec a c hs hc h).1 ax hax
  obtain ⟨b1, b2, b3, h1, h2, h3, rfl⟩ := (construct_stages E axes spec a c).1 h
  have p1 := (axes_fold E a axes _ _ h1).1
  have hm1 : (copyAllAttrs E spec a b3).maps = b1.maps := construct_maps E axes spec a b1 b2 b3 hs hc p1 h2 h3
  have hsh := axes_shared E a src hsrc ax hkw axes _ _ (.inl hax) h1
  rw [← hm1, hm] at hsh
  exact ⟨m, m, hm, hsh.symm, rfl⟩

-- the frequencies of the copy are those of `old`, array number 1
example : ∃ c, construct env freqTime threeSets copyArgs = .ok c ∧ ∃ m, c.maps "freq" = some m ∧ m.buf = some 1 := by
  obtain ⟨c, hc⟩ := copyArgs_accepted
  obtain ⟨m, m', h1, h2, h3⟩ := C64_shared_violated env freqTime threeSets copyArgs c old (by decide) (by decide) hc rfl
    "freq" (by decide) rfl
  obtain rfl : (⟨[400, 800], some 1⟩ : AxisMap Nat) = m' := Option.some.inj h2
  exact ⟨c, hc, m, h1, h3⟩

end Verif.Proto
