/-
Red-black trees (src/utils/rbtree.h, src/utils/rbtree.c), at pointer level.

A pointer is a `Nat`; 0 is NULL.  `__rb_parent_color` packs the parent pointer
and the colour into one word; here it is two fields (`par`, `black`).  That the
packed word carries the same information for nodes aligned to 4 bytes is
`Ulp.Rb.C25_packed_word`.  Reading or writing through NULL, or through a
pointer to no allocated node, is `none`.

Both mirrored branches of `__rb_insert` and `____rb_erase_color` are modelled,
as they are in the source.
-/
namespace Ulp.Rb

/-- `struct rb_node` (src/utils/rbtree.h:38-42) -/
structure RbNode where
  par : Nat
  black : Bool
  left : Nat
  right : Nat
  deriving DecidableEq, Repr

/-- The allocated nodes, and the `rb_node` of one `struct rb_root`
(src/utils/rbtree.h:45-47). -/
structure St where
  m : Nat → Option RbNode
  root : Nat

/-- Reading the node at `p`. -/
def get (s : St) (p : Nat) : Option RbNode := if p = 0 then none else s.m p

/-- Replacing the contents of the node at `p`. -/
def upd (s : St) (p : Nat) (n : RbNode) : St :=
  { s with m := fun x => if x = p then some n else s.m x }

/-- `p->rb_left = v` -/
def setLeft (s : St) (p v : Nat) : Option St := do
  let n ← get s p
  return upd s p { n with left := v }

/-- `p->rb_right = v` -/
def setRight (s : St) (p v : Nat) : Option St := do
  let n ← get s p
  return upd s p { n with right := v }

/-- `rb_set_parent` (src/utils/rbtree.h:135-138) -/
def rbSetParent (s : St) (rb p : Nat) : Option St := do
  let n ← get s rb
  return upd s rb { n with par := p }

/-- `rb_set_parent_color` (src/utils/rbtree.h:140-144); also an assignment of a
whole `__rb_parent_color` word. -/
def rbSetParentColor (s : St) (rb p : Nat) (black : Bool) : Option St := do
  let n ← get s rb
  return upd s rb { n with par := p, black := black }

/-- `rb_set_black` (src/utils/rbtree.c:70-73) -/
def rbSetBlack (s : St) (rb : Nat) : Option St := do
  let n ← get s rb
  return upd s rb { n with black := true }

/-- `tmp && rb_is_red(tmp)`; the negation of `!tmp || rb_is_black(tmp)`. -/
def isRedNode (s : St) (p : Nat) : Option Bool :=
  if p = 0 then some false else do
    let n ← get s p
    return !n.black

/-- `__rb_change_child` (src/utils/rbtree.h:146-157) -/
def rbChangeChild (s : St) (old new parent : Nat) : Option St :=
  if parent ≠ 0 then do
    let p ← get s parent
    if p.left = old then setLeft s parent new else setRight s parent new
  else some { s with root := new }

/-- `__rb_rotate_set_parents` (src/utils/rbtree.c:85-93) -/
def rbRotateSetParents (s : St) (old new : Nat) (black : Bool) : Option St := do
  let o ← get s old
  let s ← rbSetParentColor s new o.par o.black
  let s ← rbSetParentColor s old new black
  rbChangeChild s old new o.par

/-- `if (tmp) rb_set_parent_color(tmp, p, RB_BLACK)` -/
def setParentBlackIf (s : St) (tmp p : Nat) : Option St :=
  if tmp ≠ 0 then rbSetParentColor s tmp p true else some s

/-- `if (tmp) rb_set_parent(tmp, p)` -/
def setParentIf (s : St) (tmp p : Nat) : Option St :=
  if tmp ≠ 0 then rbSetParent s tmp p else some s

/-- Case 3 of `__rb_insert`, right rotation at `gparent`
(src/utils/rbtree.c:174-178) -/
def insertCase3L (s : St) (parent gparent tmp : Nat) : Option St := do
  let s ← setLeft s gparent tmp
  let s ← setRight s parent gparent
  let s ← setParentBlackIf s tmp gparent
  rbRotateSetParents s gparent parent false

/-- Cases 2 and 3 of `__rb_insert` for a parent that is a left child
(src/utils/rbtree.c:140-178) -/
def insertRotL (s : St) (node parent gparent : Nat) : Option St := do
  let p ← get s parent
  let tmp := p.right
  if node = tmp then
    let n ← get s node
    let tmp := n.left
    let s ← setRight s parent tmp
    let s ← setLeft s node parent
    let s ← setParentBlackIf s tmp parent
    let s ← rbSetParentColor s parent node false
    let n ← get s node
    insertCase3L s node gparent n.right
  else insertCase3L s parent gparent tmp

/-- Case 3 of `__rb_insert`, left rotation at `gparent`
(src/utils/rbtree.c:207-211) -/
def insertCase3R (s : St) (parent gparent tmp : Nat) : Option St := do
  let s ← setRight s gparent tmp
  let s ← setLeft s parent gparent
  let s ← setParentBlackIf s tmp gparent
  rbRotateSetParents s gparent parent false

/-- Cases 2 and 3 of `__rb_insert` for a parent that is a right child
(src/utils/rbtree.c:192-211) -/
def insertRotR (s : St) (node parent gparent : Nat) : Option St := do
  let p ← get s parent
  let tmp := p.left
  if node = tmp then
    let n ← get s node
    let tmp := n.right
    let s ← setLeft s parent tmp
    let s ← setRight s node parent
    let s ← setParentBlackIf s tmp parent
    let s ← rbSetParentColor s parent node false
    let n ← get s node
    insertCase3R s node gparent n.left
  else insertCase3R s parent gparent tmp

/-- Case 1 of `__rb_insert`, the colour flip (src/utils/rbtree.c:132-136 and
184-188): the state, and the new `node` and `parent`. -/
def insertFlip (s : St) (tmp parent gparent : Nat) : Option (St × Nat) := do
  let s ← rbSetParentColor s tmp gparent true
  let s ← rbSetParentColor s parent gparent true
  let n ← get s gparent
  let s ← rbSetParentColor s gparent n.par false
  return (s, n.par)

/-- The loop of `__rb_insert` (src/utils/rbtree.c:100-214).  `rb_red_parent`
reads the word of a red node, which is its parent pointer. -/
def insertLoop (s : St) (node parent : Nat) : Option St := do
  if parent = 0 then rbSetParentColor s node 0 true
  else
    let p ← get s parent
    if p.black then return s
    else
      let gparent := p.par
      let g ← get s gparent
      if parent ≠ g.right then
        let red ← isRedNode s g.right
        if red then
          let r ← insertFlip s g.right parent gparent
          insertLoop r.1 gparent r.2
        else insertRotL s node parent gparent
      else
        let red ← isRedNode s g.left
        if red then
          let r ← insertFlip s g.left parent gparent
          insertLoop r.1 gparent r.2
        else insertRotR s node parent gparent
  partial_fixpoint

/-- `rb_insert_color` (src/utils/rbtree.c:410-413) and the head of `__rb_insert`
(95-98): `node` is red, so its word is its parent pointer. -/
def rbInsertColor (s : St) (node : Nat) : Option St := do
  let n ← get s node
  insertLoop s node n.par

/-- Case 1 of `____rb_erase_color`, left rotation at `parent`
(src/utils/rbtree.c:246-252): the new sibling. -/
def eraseCase1L (s : St) (parent sibling : Nat) : Option (St × Nat) := do
  let sb ← get s sibling
  let tmp1 := sb.left
  let s ← setRight s parent tmp1
  let s ← setLeft s sibling parent
  let s ← rbSetParentColor s tmp1 parent true
  let s ← rbRotateSetParents s parent sibling false
  return (s, tmp1)

/-- Case 2 of `____rb_erase_color`, colour flip (src/utils/rbtree.c:273-283 and
360-370): the state, and the next `node` and `parent` if the loop goes on. -/
def eraseCase2 (s : St) (parent sibling : Nat) : Option (St × Option (Nat × Nat)) := do
  let s ← rbSetParentColor s sibling parent false
  let p ← get s parent
  if !p.black then
    let s ← rbSetBlack s parent
    return (s, none)
  else if p.par ≠ 0 then return (s, some (parent, p.par))
  else return (s, none)

/-- Case 3 of `____rb_erase_color`, right rotation at `sibling`
(src/utils/rbtree.c:312-320) -/
def eraseCase3L (s : St) (parent sibling tmp2 : Nat) : Option St := do
  let t2 ← get s tmp2
  let tmp1 := t2.right
  let s ← setLeft s sibling tmp1
  let s ← setRight s tmp2 sibling
  let s ← setRight s parent tmp2
  setParentBlackIf s tmp1 sibling

/-- Case 4 of `____rb_erase_color`, left rotation at `parent`
(src/utils/rbtree.c:334-341) -/
def eraseCase4L (s : St) (parent sibling tmp1 : Nat) : Option St := do
  let sb ← get s sibling
  let tmp2 := sb.left
  let s ← setRight s parent tmp2
  let s ← setLeft s sibling parent
  let s ← rbSetParentColor s tmp1 sibling true
  let s ← setParentIf s tmp2 parent
  rbRotateSetParents s parent sibling true

/-- Cases 2 to 4 of `____rb_erase_color` for a node that is a left child
(src/utils/rbtree.c:254-342) -/
def eraseMainL (s : St) (parent sibling : Nat) : Option (St × Option (Nat × Nat)) := do
  let sb ← get s sibling
  let tmp1 := sb.right
  let red1 ← isRedNode s tmp1
  if !red1 then
    let tmp2 := sb.left
    let red2 ← isRedNode s tmp2
    if !red2 then eraseCase2 s parent sibling
    else
      let s ← eraseCase3L s parent sibling tmp2
      let s ← eraseCase4L s parent tmp2 sibling
      return (s, none)
  else
    let s ← eraseCase4L s parent sibling tmp1
    return (s, none)

/-- Case 1 of `____rb_erase_color`, right rotation at `parent`
(src/utils/rbtree.c:347-353) -/
def eraseCase1R (s : St) (parent sibling : Nat) : Option (St × Nat) := do
  let sb ← get s sibling
  let tmp1 := sb.right
  let s ← setLeft s parent tmp1
  let s ← setRight s sibling parent
  let s ← rbSetParentColor s tmp1 parent true
  let s ← rbRotateSetParents s parent sibling false
  return (s, tmp1)

/-- Case 3 of `____rb_erase_color`, left rotation at `sibling`
(src/utils/rbtree.c:373-380) -/
def eraseCase3R (s : St) (parent sibling tmp2 : Nat) : Option St := do
  let t2 ← get s tmp2
  let tmp1 := t2.left
  let s ← setRight s sibling tmp1
  let s ← setLeft s tmp2 sibling
  let s ← setLeft s parent tmp2
  setParentBlackIf s tmp1 sibling

/-- Case 4 of `____rb_erase_color`, right rotation at `parent`
(src/utils/rbtree.c:383-390) -/
def eraseCase4R (s : St) (parent sibling tmp1 : Nat) : Option St := do
  let sb ← get s sibling
  let tmp2 := sb.right
  let s ← setLeft s parent tmp2
  let s ← setRight s sibling parent
  let s ← rbSetParentColor s tmp1 sibling true
  let s ← setParentIf s tmp2 parent
  rbRotateSetParents s parent sibling true

/-- Cases 2 to 4 of `____rb_erase_color` for a node that is a right child
(src/utils/rbtree.c:355-391) -/
def eraseMainR (s : St) (parent sibling : Nat) : Option (St × Option (Nat × Nat)) := do
  let sb ← get s sibling
  let tmp1 := sb.left
  let red1 ← isRedNode s tmp1
  if !red1 then
    let tmp2 := sb.right
    let red2 ← isRedNode s tmp2
    if !red2 then eraseCase2 s parent sibling
    else
      let s ← eraseCase3R s parent sibling tmp2
      let s ← eraseCase4R s parent tmp2 sibling
      return (s, none)
  else
    let s ← eraseCase4R s parent sibling tmp1
    return (s, none)

/-- One iteration of the loop of `____rb_erase_color` (src/utils/rbtree.c:226-393) -/
def eraseStep (s : St) (node parent : Nat) : Option (St × Option (Nat × Nat)) := do
  let p ← get s parent
  if node ≠ p.right then
    let sb ← get s p.right
    if !sb.black then
      let r ← eraseCase1L s parent p.right
      eraseMainL r.1 parent r.2
    else eraseMainL s parent p.right
  else
    let sb ← get s p.left
    if !sb.black then
      let r ← eraseCase1R s parent p.left
      eraseMainR r.1 parent r.2
    else eraseMainR s parent p.left

/-- The loop of `____rb_erase_color` (src/utils/rbtree.c:226-393) -/
def eraseLoop (s : St) (node parent : Nat) : Option St := do
  let r ← eraseStep s node parent
  match r.2 with
  | none => some r.1
  | some q => eraseLoop r.1 q.1 q.2
  partial_fixpoint

/-- The descent to the successor in `__rb_erase` (src/utils/rbtree.h:224-228):
`parent` and `successor`. -/
def succLoop (s : St) (successor tmp : Nat) : Option (Nat × Nat) := do
  let t ← get s tmp
  if t.left ≠ 0 then succLoop s tmp t.left
  else return (successor, tmp)
  partial_fixpoint

/-- `__rb_erase` from `tmp = node->rb_left` on (src/utils/rbtree.h:235-251) -/
def eraseSplice (s : St) (node successor parent child2 : Nat) : Option (St × Nat) := do
  let n ← get s node
  let s ← setLeft s successor n.left
  let s ← rbSetParent s n.left successor
  let n ← get s node
  let s ← rbChangeChild s node successor n.par
  if child2 ≠ 0 then
    let s ← rbSetParentColor s successor n.par n.black
    let s ← rbSetParentColor s child2 parent true
    return (s, 0)
  else
    let pc2 ← get s successor
    let s ← rbSetParentColor s successor n.par n.black
    return (s, if pc2.black then parent else 0)

/-- `__rb_erase` (src/utils/rbtree.h:161-256): the state and where to rebalance.
The word read as `pc` before `__rb_change_child` in case 1 is that of `node`,
which is not changed. -/
def rbErase0 (s : St) (node : Nat) : Option (St × Nat) := do
  let n ← get s node
  let child := n.right
  let tmp := n.left
  if tmp = 0 then
    let s ← rbChangeChild s node child n.par
    if child ≠ 0 then
      let s ← rbSetParentColor s child n.par n.black
      return (s, 0)
    else return (s, if n.black then n.par else 0)
  else if child = 0 then
    let s ← rbSetParentColor s tmp n.par n.black
    let s ← rbChangeChild s node tmp n.par
    return (s, 0)
  else
    let c ← get s child
    if c.left = 0 then eraseSplice s node child child c.right
    else
      let q ← succLoop s child c.left
      let su ← get s q.2
      let s ← setLeft s q.1 su.right
      let s ← setRight s q.2 child
      let s ← rbSetParent s child q.2
      eraseSplice s node q.2 q.1 su.right

/-- `rb_erase` (src/utils/rbtree.c:416-422) -/
def rbErase (s : St) (node : Nat) : Option St := do
  let r ← rbErase0 s node
  if r.2 ≠ 0 then eraseLoop r.1 0 r.2 else return r.1

/-- The loop of `rb_search_node` (src/utils/rbtree.h:281-294); `cmp` is the
comparison callback with the key already given. -/
def searchLoop (s : St) (cmp : Nat → Int) (node : Nat) : Option Nat := do
  if node = 0 then return 0
  else
    let n ← get s node
    if cmp node < 0 then searchLoop s cmp n.left
    else if cmp node > 0 then searchLoop s cmp n.right
    else return node
  partial_fixpoint

/-- `rb_search_node` (src/utils/rbtree.h:275-295) -/
def rbSearchNode (s : St) (cmp : Nat → Int) : Option Nat := searchLoop s cmp s.root

/-- Where the link that `struct rb_node **node` points to is. -/
inductive Link where
  | root
  | left (p : Nat)
  | right (p : Nat)
  deriving DecidableEq, Repr

/-- `*node` -/
def readLink (s : St) : Link → Option Nat
  | .root => some s.root
  | .left p => do let n ← get s p; return n.left
  | .right p => do let n ← get s p; return n.right

/-- `*node = v` -/
def writeLink (s : St) (v : Nat) : Link → Option St
  | .root => some { s with root := v }
  | .left p => setLeft s p v
  | .right p => setRight s p v

/-- `rb_link_node` (src/utils/rbtree.h:84-91): the new node is red. -/
def rbLinkNode (s : St) (node parent : Nat) (l : Link) : Option St := do
  let _ ← get s node
  writeLink (upd s node ⟨parent, false, 0, 0⟩) node l

/-- The loop of `rb_insert_node` (src/utils/rbtree.h:308-317): the link and
parent where it ends, or the node found. -/
def insertDescend (s : St) (cmp : Nat → Int) (link : Link) (parent : Nat) :
    Option (Link × Nat × Nat) := do
  let cur ← readLink s link
  if cur ≠ 0 then
    if cmp cur < 0 then insertDescend s cmp (.left cur) cur
    else if cmp cur > 0 then insertDescend s cmp (.right cur) cur
    else return (link, parent, cur)
  else return (link, parent, 0)
  partial_fixpoint

/-- `rb_insert_node` (src/utils/rbtree.h:298-324): the state and the result. -/
def rbInsertNode (s : St) (new : Nat) (cmp : Nat → Int) : Option (St × Nat) := do
  let r ← insertDescend s cmp .root 0
  if r.2.2 ≠ 0 then return (s, r.2.2)
  else
    let s ← rbLinkNode s new r.2.1 r.1
    let s ← rbInsertColor s new
    return (s, 0)

/-- `while (n->rb_left) n = n->rb_left;` (src/utils/rbtree.c:435-436, 465-466;
src/utils/rbtree.h:342-343) -/
def goLeft (s : St) (n : Nat) : Option Nat := do
  let x ← get s n
  if x.left ≠ 0 then goLeft s x.left else return n
  partial_fixpoint

/-- `while (n->rb_right) n = n->rb_right;` (src/utils/rbtree.c:448-449, 498-499) -/
def goRight (s : St) (n : Nat) : Option Nat := do
  let x ← get s n
  if x.right ≠ 0 then goRight s x.right else return n
  partial_fixpoint

/-- `rb_first` (src/utils/rbtree.c:428-438) -/
def rbFirst (s : St) : Option Nat := if s.root = 0 then some 0 else goLeft s s.root

/-- `rb_last` (src/utils/rbtree.c:441-451) -/
def rbLast (s : St) : Option Nat := if s.root = 0 then some 0 else goRight s s.root

/-- The climb of `rb_next` (src/utils/rbtree.c:478-482) -/
def nextUp (s : St) (node : Nat) : Option Nat := do
  let n ← get s node
  if n.par = 0 then return 0
  else
    let p ← get s n.par
    if node = p.right then nextUp s n.par else return n.par
  partial_fixpoint

/-- The climb of `rb_prev` (src/utils/rbtree.c:507-511) -/
def prevUp (s : St) (node : Nat) : Option Nat := do
  let n ← get s node
  if n.par = 0 then return 0
  else
    let p ← get s n.par
    if node = p.left then prevUp s n.par else return n.par
  partial_fixpoint

/-- `RB_EMPTY_NODE` (src/utils/rbtree.h:59-60): the word equals the node's own
address, so it is a red node that is its own parent. -/
def emptyNode (n : RbNode) (node : Nat) : Bool := n.par == node && !n.black

/-- `rb_next` (src/utils/rbtree.c:454-483) -/
def rbNext (s : St) (node : Nat) : Option Nat := do
  let n ← get s node
  if emptyNode n node then return 0
  else if n.right ≠ 0 then goLeft s n.right
  else nextUp s node

/-- `rb_prev` (src/utils/rbtree.c:486-512) -/
def rbPrev (s : St) (node : Nat) : Option Nat := do
  let n ← get s node
  if emptyNode n node then return 0
  else if n.left ≠ 0 then goRight s n.left
  else prevUp s node

/-- `rb_replace_node` (src/utils/rbtree.c:515-529) -/
def rbReplaceNode (s : St) (victim new : Nat) : Option St := do
  let v ← get s victim
  let _ ← get s new
  let s := upd s new v
  let s ← setParentIf s v.left new
  let s ← setParentIf s v.right new
  rbChangeChild s victim new v.par

/-- `rb_left_deepest_node` (src/utils/rbtree.c:533-543) -/
def leftDeepest (s : St) (node : Nat) : Option Nat := do
  let n ← get s node
  if n.left ≠ 0 then leftDeepest s n.left
  else if n.right ≠ 0 then leftDeepest s n.right
  else return node
  partial_fixpoint

/-- `rb_next_postorder` (src/utils/rbtree.c:545-561) -/
def rbNextPostorder (s : St) (node : Nat) : Option Nat :=
  if node = 0 then some 0 else do
    let n ← get s node
    if n.par = 0 then return 0
    else
      let p ← get s n.par
      if node = p.left ∧ p.right ≠ 0 then leftDeepest s p.right else return n.par

/-- `rb_first_postorder` (src/utils/rbtree.c:564-570) -/
def rbFirstPostorder (s : St) : Option Nat := if s.root = 0 then some 0 else leftDeepest s s.root

/-- `free` of the structure that contains the node; freeing what is not allocated
is undefined. -/
def freeNode (s : St) (p : Nat) : Option St := do
  let _ ← get s p
  return { s with m := fun x => if x = p then none else s.m x }

/-- The climb in `rb_destroy` (src/utils/rbtree.h:345-349); the comparison
`node == parent->rb_right` does not read `node`, which is freed. -/
def destroyUp (s : St) (node parent : Nat) : Option Nat := do
  if parent = 0 then return 0
  else
    let p ← get s parent
    if node = p.right then destroyUp s parent p.par else return parent
  partial_fixpoint

/-- The loop of `rb_destroy` (src/utils/rbtree.h:332-351) with the callback
`free_node_cb` = `cb`, in a program whose state is `σ`; the tree is the part of
the state that `tree` reads and `put` replaces. -/
def destroyLoop {σ : Type} (tree : σ → St) (put : σ → St → σ) (cb : σ → Nat → Option σ) (s : σ) (node : Nat) :
    Option σ := do
  if node = 0 then return s
  else
    let n ← get (tree s) node
    let s ← cb s node
    if n.right ≠ 0 then
      let t ← rbSetParentColor (tree s) n.right n.par false
      let next ← goLeft t n.right
      destroyLoop tree put cb (put s t) next
    else
      let next ← destroyUp (tree s) node n.par
      destroyLoop tree put cb s next
  partial_fixpoint

/-- `rb_destroy` (src/utils/rbtree.h:326-352) -/
def rbDestroyWith {σ : Type} (tree : σ → St) (put : σ → St → σ) (cb : σ → Nat → Option σ) (s : σ) : Option σ := do
  let node ← rbFirst (tree s)
  destroyLoop tree put cb s node

/-- A callback that frees the structure containing the node; the second part of
the state is the nodes freed so far. -/
def freeLog (s : St × List Nat) (p : Nat) : Option (St × List Nat) := do
  let t ← freeNode s.1 p
  return (t, s.2 ++ [p])

/-- `rb_destroy` (src/utils/rbtree.h:326-352) with a callback that frees the
structure containing the node: the state and the nodes freed, in order. -/
def rbDestroy (s : St) : Option (St × List Nat) :=
  rbDestroyWith (σ := St × List Nat) (·.1) (fun s t => (t, s.2)) freeLog (s, [])

end Ulp.Rb
