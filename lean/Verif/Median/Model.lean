import Mathlib.Data.Rat.Defs
import Mathlib.Algebra.Order.Ring.Rat

/-!
# Model of the weighted median tree

Models `caput/algorithms/median/MedianTree.hpp`, `MedianTreeNode.hpp` and `MedianTreeNodeData.hpp`.

Simplifications. Values and weights are rationals (NaN and infinities are left out). Every C++
addition of doubles goes through a parameter `add`: `exact` is exact addition, `addDouble` (file
`Double.lean`) is addition rounded to a double. The in-place pointer structure (parent pointers and
`left_child` flags) is replaced by rebuilding the path from the changed node to the root, and by a
cursor (a subtree with the frames leading to it) where the code walks along parent pointers.
A null pointer dereference is the result `none`.
-/
namespace Verif.Median

/-- `Data<T>`: a value with its weight. MedianTreeNodeData.hpp:12-40. -/
structure Item where
  v : Rat
  w : Rat
deriving DecidableEq, Repr

/-- `Data<T>::operator<`. MedianTreeNodeData.hpp:41-46. -/
def Item.lt (a b : Item) : Bool :=
  if a.v = b.v then decide (a.w < b.w) else decide (a.v < b.v)

/-- `Node<T>` and the (nullable) pointer to it: left child, data, cached left and right heights,
cached left and right weights, right child. MedianTreeNode.hpp:18-48. -/
inductive Tree where
  | nil
  | node (l : Tree) (d : Item) (lh rh : Nat) (lw rw : Rat) (r : Tree)
deriving DecidableEq, Repr

/-- Exact addition. -/
def exact (a b : Rat) : Rat := a + b

/-- `left ? left->total_height() : 0` with `total_height` of MedianTreeNode.hpp:75-79. -/
def totalHeight : Tree → Nat
  | .nil => 0
  | .node _ _ lh rh _ _ _ => max lh rh + 1

/-- `left ? left->total_weight() : 0` with `total_weight` of MedianTreeNode.hpp:83-88. -/
def totalWeight (add : Rat → Rat → Rat) : Tree → Rat
  | .nil => 0
  | .node _ d _ _ lw rw _ => add (add lw rw) d.w

/-- A new leaf. MedianTreeNode.hpp:54-64. -/
def leaf (x : Item) : Tree := .node .nil x 0 0 0 0 .nil

/-- A node whose caches are computed from its children, `update`. MedianTreeNode.hpp:90-97. -/
def mk (add : Rat → Rat → Rat) (l : Tree) (d : Item) (r : Tree) : Tree :=
  .node l d (totalHeight l) (totalHeight r) (totalWeight add l) (totalWeight add r) r

/-- `rotate_R`. The last line of the code redirects the parent's pointer, here the result.
MedianTree.hpp:370-390. -/
def rotateR (add : Rat → Rat → Rat) : Tree → Option Tree
  | .node (.node a ld _ _ _ _ b) d _ _ _ _ r => some (mk add a ld (mk add b d r))
  | _ => none

/-- `rotate_L`. MedianTree.hpp:393-415. -/
def rotateL (add : Rat → Rat → Rat) : Tree → Option Tree
  | .node l d _ _ _ _ (.node a rd _ _ _ _ b) => some (mk add (mk add l d a) rd b)
  | _ => none

/-- Does the left subtree lean right (`node->left->left_height >= ...` is false)? `none` for a null
pointer. Used for MedianTree.hpp:333 and 346. -/
def heights : Tree → Option (Nat × Nat)
  | .nil => none
  | .node _ _ lh rh _ _ _ => some (lh, rh)

/-- First case of `balance`: the left subtree is too high. MedianTree.hpp:330-341. -/
def balanceLeft (add : Rat → Rat → Rat) (l : Tree) (d : Item) (lh rh : Nat) (lw rw : Rat)
    (r : Tree) : Option Tree := do
  let h ← heights l
  if h.2 ≤ h.1 then rotateR add (.node l d lh rh lw rw r)
  else
    let l' ← rotateL add l
    rotateR add (.node l' d lh rh lw rw r)

/-- Second case of `balance`: the right subtree is too high. MedianTree.hpp:342-353. -/
def balanceRight (add : Rat → Rat → Rat) (l : Tree) (d : Item) (lh rh : Nat) (lw rw : Rat)
    (r : Tree) : Option Tree := do
  let h ← heights r
  if h.1 ≤ h.2 then rotateL add (.node l d lh rh lw rw r)
  else
    let r' ← rotateR add r
    rotateL add (.node l d lh rh lw rw r')

/-- `balance`; the flag says whether a rotation took place. MedianTree.hpp:327-357. -/
def balance (add : Rat → Rat → Rat) : Tree → Option (Tree × Bool)
  | .nil => none
  | .node l d lh rh lw rw r =>
    if lh = rh + 2 then (balanceLeft add l d lh rh lw rw r).map (·, true)
    else if rh = lh + 2 then (balanceRight add l d lh rh lw rw r).map (·, true)
    else some (.node l d lh rh lw rw r, false)

/-- `node->update()`. MedianTreeNode.hpp:90-97. -/
def update (add : Rat → Rat → Rat) : Tree → Option Tree
  | .nil => none
  | .node l d _ _ _ _ r => some (mk add l d r)

/-- The rounds of the loop of `balance_path` at one place of the path: update and balance the node;
after a rotation `node->parent` is the new root of this subtree, so the loop comes back to the same
place. `fuel` bounds the number of rounds; two are enough (`visit_ok`), and `none` is the result
when it runs out. MedianTree.hpp:360-367. -/
def visitN (add : Rat → Rat → Rat) : Nat → Tree → Option Tree
  | 0, _ => none
  | fuel + 1, t => do
    let t1 ← update add t
    let t2 ← balance add t1
    if t2.2 then visitN add fuel t2.1 else some t2.1

def visit (add : Rat → Rat → Rat) (t : Tree) : Option Tree := visitN add 2 t

/-- `insert`: walk down, attach the leaf, then run `balance_path` from the leaf's parent to the
root. MedianTree.hpp:200-236. -/
def insertAt (add : Rat → Rat → Rat) (x : Item) : Tree → Option Tree
  | .nil => some (leaf x)
  | .node l d lh rh lw rw r =>
    if x.lt d then do
      let l' ← insertAt add x l
      visit add (.node l' d lh rh lw rw r)
    else do
      let r' ← insertAt add x r
      visit add (.node l d lh rh lw rw r')

/-- `find_node`. MedianTree.hpp:249-260. -/
def find (x : Item) : Tree → Bool
  | .nil => false
  | .node l d _ _ _ _ r =>
    if d = x then true else if x.lt d then find x l else find x r

/-- Remove the smallest node of a subtree (`find_min`, then the first two cases of `remove_node`),
followed by `balance_path` within the subtree. MedianTree.hpp:284-305, 310-312, 652-658. -/
def removeMin (add : Rat → Rat → Rat) : Tree → Option (Item × Tree)
  | .nil => none
  | .node .nil d _ _ _ _ r => some (d, r)
  | .node l d lh rh lw rw r => do
    let p ← removeMin add l
    let t ← visit add (.node p.2 d lh rh lw rw r)
    some (p.1, t)

/-- `remove_node` on the root of a subtree. MedianTree.hpp:282-313. -/
def removeRoot (add : Rat → Rat → Rat) (l : Tree) (lh rh : Nat) (lw rw : Rat) (r : Tree) :
    Option Tree :=
  if l = .nil then some r
  else if r = .nil then some l
  else do
    let p ← removeMin add r
    visit add (.node l p.1 lh rh lw rw p.2)

/-- `remove_node` on the node `find_node` returns, followed by `balance_path`. `none` when the walk
ends at a null pointer, which `remove` excludes by its test. MedianTree.hpp:265-279. -/
def removeAt (add : Rat → Rat → Rat) (x : Item) : Tree → Option Tree
  | .nil => none
  | .node l d lh rh lw rw r =>
    if d = x then removeRoot add l lh rh lw rw r
    else if x.lt d then do
      let l' ← removeAt add x l
      visit add (.node l' d lh rh lw rw r)
    else do
      let r' ← removeAt add x r
      visit add (.node l d lh rh lw rw r')

/-- `Tree<T>`: root and `tree_size`. MedianTree.hpp:38-58, 195-197. -/
structure MTree where
  root : Tree
  size : Nat
deriving DecidableEq, Repr

def MTree.empty : MTree := ⟨.nil, 0⟩

/-- `Tree<T>::insert`. MedianTree.hpp:200-236. -/
def MTree.insert (add : Rat → Rat → Rat) (t : MTree) (x : Item) : Option MTree := do
  let r ← insertAt add x t.root
  some ⟨r, t.size + 1⟩

/-- `Tree<T>::remove`, with its return value. MedianTree.hpp:264-279. -/
def MTree.remove (add : Rat → Rat → Rat) (t : MTree) (x : Item) : Option (MTree × Bool) :=
  if find x t.root then do
    let r ← removeAt add x t.root
    some (⟨r, t.size - 1⟩, true)
  else some (t, false)

/-! ## Median -/

/-- One step of the path from the root to a node: the node above, with the side we came from. -/
inductive Frame where
  | left (d : Item) (lh rh : Nat) (lw rw : Rat) (r : Tree)
  | right (l : Tree) (d : Item) (lh rh : Nat) (lw rw : Rat)
deriving DecidableEq, Repr

/-- A non-null node pointer: the node with its children, and the frames up to the root. -/
structure Cursor where
  l : Tree
  d : Item
  lh : Nat
  rh : Nat
  lw : Rat
  rw : Rat
  r : Tree
  up : List Frame
deriving DecidableEq, Repr

/-- First loop of `weighted_median`. `none` is the dereference of a null child.
MedianTree.hpp:543-552. -/
def descend (add : Rat → Rat → Rat) (mid : Rat) :
    Tree → List Frame → Rat → Rat → Option (Cursor × Rat × Rat)
  | .nil, _, _, _ => none
  | .node l d lh rh lw rw r, up, prev, next =>
    if mid < add lw prev then
      descend add mid l (.left d lh rh lw rw r :: up) prev (add next (add rw d.w))
    else if mid < add rw next then
      descend add mid r (.right l d lh rh lw rw :: up) (add prev (add lw d.w)) next
    else some (⟨l, d, lh, rh, lw, rw, r, up⟩, prev, next)

/-- `find_min` on a subtree, keeping the path. `none` for a null pointer.
MedianTree.hpp:654-660. -/
def findMin : Tree → List Frame → Option Cursor
  | .nil, _ => none
  | .node .nil d lh rh lw rw r, up => some ⟨.nil, d, lh, rh, lw, rw, r, up⟩
  | .node l d lh rh lw rw r, up => findMin l (.left d lh rh lw rw r :: up)

/-- `find_max`. MedianTree.hpp:662-668. -/
def findMax : Tree → List Frame → Option Cursor
  | .nil, _ => none
  | .node l d lh rh lw rw .nil, up => some ⟨l, d, lh, rh, lw, rw, .nil, up⟩
  | .node l d lh rh lw rw r, up => findMax r (.right l d lh rh lw rw :: up)

/-- The climbing loop of `in_order_successor`: go up while we are a right child; `t` is the subtree
we come from. MedianTree.hpp:633-638. -/
def climbNext (t : Tree) : List Frame → Option Cursor
  | [] => none
  | .left d lh rh lw rw r :: up => some ⟨t, d, lh, rh, lw, rw, r, up⟩
  | .right l d lh rh lw rw :: up => climbNext (.node l d lh rh lw rw t) up

/-- The climbing loop of `in_order_predecessor`. MedianTree.hpp:646-651. -/
def climbPrev (t : Tree) : List Frame → Option Cursor
  | [] => none
  | .right l d lh rh lw rw :: up => some ⟨l, d, lh, rh, lw, rw, t, up⟩
  | .left d lh rh lw rw r :: up => climbPrev (.node t d lh rh lw rw r) up

def Cursor.tree (c : Cursor) : Tree := .node c.l c.d c.lh c.rh c.lw c.rw c.r

/-- `in_order_successor`. MedianTree.hpp:628-639. -/
def Cursor.succ (c : Cursor) : Option Cursor :=
  if c.r = .nil then climbNext c.tree c.up
  else findMin c.r (.right c.l c.d c.lh c.rh c.lw c.rw :: c.up)

/-- `in_order_predecessor`. MedianTree.hpp:641-652. -/
def Cursor.pred (c : Cursor) : Option Cursor :=
  if c.l = .nil then climbPrev c.tree c.up
  else findMax c.l (.left c.d c.lh c.rh c.lw c.rw c.r :: c.up)

/-- First loop of `weighted_median_split`: sum and number of the values taken so far.
`fuel` bounds the rounds (the number of nodes suffices), `none` when it runs out.
MedianTree.hpp:573-580. -/
def splitDown (add : Rat → Rat → Rat) (mid : Rat) :
    Nat → Cursor → Rat → Rat → Nat → Option (Rat × Nat)
  | 0, _, _, _, _ => none
  | fuel + 1, c, next, sum, cnt =>
    if add (add c.rw next) c.d.w ≤ mid then
      match c.pred with
      | none => some (sum, cnt)
      | some c' => splitDown add mid fuel c' (add next (add c.d.w c.rw)) (add sum c'.d.v) (cnt + 1)
    else some (sum, cnt)

/-- Second loop of `weighted_median_split`. MedianTree.hpp:582-589. -/
def splitUp (add : Rat → Rat → Rat) (mid : Rat) :
    Nat → Cursor → Rat → Rat → Nat → Option (Rat × Nat)
  | 0, _, _, _, _ => none
  | fuel + 1, c, prev, sum, cnt =>
    if add (add c.lw prev) c.d.w ≤ mid then
      match c.succ with
      | none => some (sum, cnt)
      | some c' => splitUp add mid fuel c' (add prev (add c.d.w c.lw)) (add sum c'.d.v) (cnt + 1)
    else some (sum, cnt)

/-- `weighted_median_split`. The final division is exact here. MedianTree.hpp:566-591. -/
def medianSplit (add : Rat → Rat → Rat) (fuel : Nat) (c : Cursor) (prev next mid : Rat) :
    Option Rat := do
  let p ← splitDown add mid fuel c next c.d.v 1
  let q ← splitUp add mid fuel c prev p.1 p.2
  some (q.1 / q.2)

/-- `weighted_median_higher` on a node (a null node never occurs: the loop tests `node->right`).
MedianTree.hpp:593-601. -/
def medianHigher (add : Rat → Rat → Rat) (prev next mid : Rat) : Tree → Option Rat
  | .nil => none
  | .node _ d _ _ lw rw r =>
    if add rw next ≤ mid ∧ add (add lw prev) d.w ≤ mid ∧ r ≠ .nil then
      medianHigher add prev next mid r
    else some d.v

/-- `weighted_median_lower`. MedianTree.hpp:603-611. -/
def medianLower (add : Rat → Rat → Rat) (prev next mid : Rat) : Tree → Option Rat
  | .nil => none
  | .node l d _ _ lw rw _ =>
    if add lw prev ≤ mid ∧ add (add rw next) d.w ≤ mid ∧ l ≠ .nil then
      medianLower add prev next mid l
    else some d.v

/-- Number of nodes, used as the bound of the two loops of `medianSplit`. -/
def numNodes : Tree → Nat
  | .nil => 0
  | .node l _ _ _ _ _ r => numNodes l + numNodes r + 1

/-- How a call of `weighted_median` ends: a value, the exception `std::invalid_argument`, or a
crash (null pointer dereference). -/
inductive Result where
  | value (q : Rat)
  | invalidMethod
  | crash
deriving DecidableEq, Repr

def ofOption : Option Rat → Result
  | none => .crash
  | some q => .value q

/-- The choice of the method after the descent. MedianTree.hpp:554-563. -/
def finish (add : Rat → Rat → Rat) (mid : Rat) (fuel : Nat) (method : Char) :
    Option (Cursor × Rat × Rat) → Result
  | none => .crash
  | some (c, prev, next) =>
    if method = 's' then ofOption (medianSplit add fuel c prev next mid)
    else if method = 'l' then ofOption (medianLower add prev next mid c.tree)
    else if method = 'h' then ofOption (medianHigher add prev next mid c.tree)
    else .invalidMethod

/-- `Tree<T>::weighted_median`. MedianTree.hpp:531-564. -/
def weightedMedian (add : Rat → Rat → Rat) (t : Tree) (method : Char) : Result :=
  if t = .nil then .value 0
  else
    let mid := totalWeight add t / 2
    finish add mid (numNodes t + 1) method (descend add mid t [] 0 0)

end Verif.Median
