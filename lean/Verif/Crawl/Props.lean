import Verif.Crawl.Lemmas

/-!
# C66: redistributing a container
-/
namespace Verif.Crawl

variable {δ : Type}

/-! ### The properties -/

/-- **C66** (datasets). Redistributing a container that is the root of its tree takes every dataset of the tree,
however deep, to the first of the listed axes that it has; distributed datasets that have none of them, and
datasets that are not distributed, stay as they are, and so does everything outside the tree. Doing so twice to
the same object does no harm (`hm`: C04, an array already distributed over the axis is returned as it is). -/
theorem C66_redistribute_partial (move : Int → δ → δ) (hm : ∀ k x, move k (move k x) = move k x) (args : List AxisArg)
    (b : Box) (s : St δ) (hr : ∀ a d, s.heap a = some d → InReach d.naxis args) (addr : Nat) :
    ((∃ p, Holds (.group b.root) p addr) → ∀ d, s.heap addr = some d →
      ∃ d', (redistribute move args b s).heap addr = some d' ∧ Becomes move args d d') ∧
    ((∀ p, ¬ Holds (.group b.root) p addr) → (redistribute move args b s).heap addr = s.heap addr) := by
  have hin : InStack b.root.toList.reverse addr ↔ ∃ p, Holds (.group b.root) p addr := by
    constructor
    · rintro ⟨x, hx, p, hp⟩
      exact ⟨_, .inside _ x.1 x.2 p addr (List.mem_reverse.1 hx) hp⟩
    · rintro ⟨p, hp⟩
      cases hp with
      | inside _ n t p _ hm hp => exact ⟨_, List.mem_reverse.2 hm, p, hp⟩
  have := crawl_heap move hm args b.root.toList.reverse s addr
  unfold redistribute
  constructor
  · intro h d hd
    rw [this.1 (hin.2 h), hd]
    exact ⟨_, rfl, upd_becomes move args d (hr addr d hd)⟩
  · intro h
    exact this.2 (fun hs => by obtain ⟨p, hp⟩ := hin.1 hs; exact h p hp)

/-- **C66** (warnings). Exactly the distributed datasets that have none of the axes are warned about, by the last
part of their path. -/
theorem C66_warnings_partial (move : Int → δ → δ) (args : List AxisArg) (b : Box) (s : St δ)
    (hr : ∀ a d, s.heap a = some d → InReach d.naxis args) (hw : s.warned = []) (w : Str) :
    w ∈ (redistribute move args b s).warned ↔ ∃ p, Missed args s.heap (.group b.root) p ∧ p.getLast? = some w := by
  unfold redistribute
  rw [crawl_warned move args s.heap _ s (fun _ => rfl) w, hw]
  have hmiss : ∀ a, missedAt args s.heap a = true ↔ ∃ d x, s.heap a = some d ∧ d.dist = some x ∧
      ∀ k, ¬ Chosen d.naxis d.labels args k := by
    intro a
    unfold missedAt
    cases h : s.heap a with
    | none => simp
    | some d =>
      simp only [Bool.and_eq_true, Option.some.injEq, exists_and_left, exists_eq_left', Option.isSome_iff_exists,
        Option.isNone_iff_eq_none]
      constructor
      · rintro ⟨⟨x, hx⟩, hn⟩
        refine ⟨x, hx, fun k hc => ?_⟩
        rw [(findSome_chosen d args (hr a d h) k).2 ⟨k, rfl, hc⟩] at hn
        cases hn
      · rintro ⟨x, hx, hno⟩
        refine ⟨⟨x, hx⟩, ?_⟩
        cases hk : args.findSome? (resolve d) with
        | none => rfl
        | some r =>
          obtain ⟨k, -, hc⟩ := (findSome_chosen d args (hr a d h) r).1 hk
          exact absurd hc (hno k)
  constructor
  · rintro (h | ⟨x, hx, p, a, h1, h2, h3⟩)
    · cases h
    · obtain ⟨d, y, e1, e2, e3⟩ := (hmiss a).1 h2
      exact ⟨x.1 :: p, ⟨a, d, y, .inside _ x.1 x.2 p a (List.mem_reverse.1 hx) h1, e1, e2, e3⟩, h3⟩
  · rintro ⟨p, ⟨a, d, y, h1, e1, e2, e3⟩, h3⟩
    cases h1 with
    | inside _ n t p _ hm hp =>
      exact .inr ⟨(n, t), List.mem_reverse.2 hm, p, a, hp, (hmiss a).2 ⟨d, y, e1, e2, e3⟩, h3⟩

/-! ### A case -/

/-- Three datasets: one at the root; one in a group, whose "axis" has only "ra"; one that is not distributed. -/
def aTree : Kids :=
  .cons "vis".toList (.dset 0) (.cons "flags".toList (.group (.cons "mask".toList (.dset 1) .nil))
    (.cons "freq".toList (.dset 2) .nil))

/-- The "array" is the axis it is distributed over. -/
def aHeap : Nat → Option (Ds Int)
  | 0 => some ⟨2, some ["freq".toList, "time".toList], some 0⟩
  | 1 => some ⟨1, some ["ra".toList], some 0⟩
  | 2 => some ⟨1, none, none⟩
  | _ => none

def aBox : Box := ⟨aTree, []⟩

def see (s : St Int) (a : Nat) : Option (Option Int) := (s.heap a).map Ds.dist

theorem aCrawl (args : List AxisArg) : redistribute (fun k _ => k) args aBox ⟨aHeap, []⟩ =
    visit (fun k _ => k) args (visit (fun k _ => k) args (visit (fun k _ => k) args ⟨aHeap, []⟩ "freq".toList 2) "mask".toList 1)
      "vis".toList 0 := by
  simp [redistribute, aBox, aTree, crawl, Kids.toList]

-- the second entry of the list is the first axis "vis" has; "mask" has neither
example : see (redistribute (fun k _ => k) [.name "pol".toList, .name "time".toList] aBox ⟨aHeap, []⟩) 0 = some (some 1) := by
  rw [aCrawl]; decide
example : see (redistribute (fun k _ => k) [.name "pol".toList, .name "time".toList] aBox ⟨aHeap, []⟩) 1 = some (some 0) := by
  rw [aCrawl]; decide
example : (redistribute (fun k _ => k) [.name "pol".toList, .name "time".toList] aBox ⟨aHeap, []⟩).warned = ["mask".toList] := by
  rw [aCrawl]; decide

example : InReach 2 [.name "time".toList, .num (-1)] := by
  intro z hz
  simp at hz
  omega

example : Chosen 2 (some ["freq".toList, "time".toList]) [.name "pol".toList, .name "time".toList] 1 := by
  refine ⟨1, _, rfl, ⟨_, rfl, by decide, rfl, by decide⟩, fun j b hj hb k => ?_⟩
  have : j = 0 := by omega
  subst this
  obtain rfl := Option.some.inj hb
  rintro ⟨l, hl, -, h, -⟩
  obtain rfl := Option.some.inj hl
  have := List.mem_of_getElem? h
  revert this
  decide

/-! ### Where the property fails -/

/-- C66: a number that counts back beyond the first axis stands for no axis, and a warning should say so. But
`-2` of one axis is taken for axis `-1`, which is passed on (see C04 for what a negative axis does there). -/
theorem C66_negative_violated :
    see (redistribute (fun k _ => k) [.num (-2)] aBox ⟨aHeap, []⟩) 1 = some (some (-1)) ∧
    (redistribute (fun k _ => k) [.num (-2)] aBox ⟨aHeap, []⟩).warned = [] ∧
    ∀ k, ¬ Chosen 1 (some ["ra".toList]) [.num (-2)] k := by
  refine ⟨by rw [aCrawl]; decide, by rw [aCrawl]; decide, ?_⟩
  rintro k ⟨i, a, hi, hm, -⟩
  cases i with
  | zero =>
    obtain rfl := Option.some.inj hi
    obtain ⟨h1, h2⟩ := hm
    omega
  | succ i => simp at hi

/-- C66: a container that is a group inside a tree redistributes the datasets of the whole tree. Here it is the
group "flags", and "vis" is moved. -/
theorem C66_subgroup_violated :
    see (redistribute (fun k _ => k) [.name "time".toList] ⟨aTree, ["flags".toList]⟩ ⟨aHeap, []⟩) 0 = some (some 1) := by
  have : redistribute (fun k _ => k) [.name "time".toList] ⟨aTree, ["flags".toList]⟩ (⟨aHeap, []⟩ : St Int) =
    redistribute (fun k _ => k) [.name "time".toList] aBox ⟨aHeap, []⟩ := rfl
  rw [this, aCrawl]
  decide

end Verif.Crawl
