/-
Doubly linked lists (src/utils/list.h, src/utils/list.c) and the callback
chains built on them (src/utils/callback.c), at pointer level.

A pointer is a natural number, 0 is `NULL`.  The heap maps a pointer to the
`struct list_head` it points to; looking at or storing through a pointer that
is not allocated (`NULL`, freed, wild) is undefined behaviour and the outcome
`none`.  So is not terminating: loops are `partial_fixpoint`s in `Option`.
-/
namespace Ulp.CList

/-- `struct list_head` (src/utils/list.h:4-6) -/
structure Node where
  next : Nat
  prev : Nat
  deriving DecidableEq, Repr

abbrev Heap := Nat → Option Node

/-- `p->next` -/
def next (h : Heap) (p : Nat) : Option Nat := (h p).map (·.next)
/-- `p->prev` -/
def prev (h : Heap) (p : Nat) : Option Nat := (h p).map (·.prev)

/-- `p->next = v` -/
def setNext (h : Heap) (p v : Nat) : Option Heap :=
  match h p with
  | none => none
  | some n => some fun x => if x = p then some { n with next := v } else h x

/-- `p->prev = v` -/
def setPrev (h : Heap) (p v : Nat) : Option Heap :=
  match h p with
  | none => none
  | some n => some fun x => if x = p then some { n with prev := v } else h x

/-- `list_init` (src/utils/list.h:33-37) -/
def listInit (h : Heap) (list : Nat) : Option Heap := do
  let h ← setNext h list list
  setPrev h list list

/-- `__list_add` (src/utils/list.h:45-53) -/
def listAdd' (h : Heap) (new prv nxt : Nat) : Option Heap := do
  let h ← setPrev h nxt new
  let h ← setNext h new nxt
  let h ← setPrev h new prv
  setNext h prv new

/-- `list_add_head` (src/utils/list.h:63-66) -/
def listAddHead (h : Heap) (new head : Nat) : Option Heap := do
  let n ← next h head
  listAdd' h new head n

/-- `list_add` (src/utils/list.h:77-80): adds at the tail -/
def listAdd (h : Heap) (new head : Nat) : Option Heap := do
  let p ← prev h head
  listAdd' h new p head

/-- `__list_del` (src/utils/list.h:89-93) -/
def listDel' (h : Heap) (prv nxt : Nat) : Option Heap := do
  let h ← setPrev h nxt prv
  setNext h prv nxt

/-- `__list_del_entry`, `list_del` (src/utils/list.h:101-109) -/
def listDel (h : Heap) (entry : Nat) : Option Heap := do
  let p ← prev h entry
  let n ← next h entry
  listDel' h p n

/-- `list_replace` (src/utils/list.h:118-125) -/
def listReplace (h : Heap) (old new : Nat) : Option Heap := do
  let n ← next h old
  let h ← setNext h new n
  let n ← next h new
  let h ← setPrev h n new
  let p ← prev h old
  let h ← setPrev h new p
  let p ← prev h new
  setNext h p new

/-- `list_move` (src/utils/list.h:132-136) -/
def listMove (h : Heap) (list head : Nat) : Option Heap := do
  let h ← listDel h list
  listAdd h list head

/-- `list_move_tail` (src/utils/list.h:143-148) -/
def listMoveTail (h : Heap) (list head : Nat) : Option Heap := do
  let h ← listDel h list
  listAdd h list head

/-- `list_is_last` (src/utils/list.h:155-159) -/
def listIsLast (h : Heap) (list head : Nat) : Option Bool := do
  let n ← next h list
  return decide (n = head)

/-- `list_empty` (src/utils/list.h:165-168) -/
def listEmpty (h : Heap) (head : Nat) : Option Bool := do
  let n ← next h head
  return decide (n = head)

/-- `list_empty_careful` (src/utils/list.h:183-187) -/
def listEmptyCareful (h : Heap) (head : Nat) : Option Bool := do
  let n ← next h head
  if n = head then
    let p ← prev h head
    return decide (n = p)
  else return false

/-- `list_rotate_left` (src/utils/list.h:193-201) -/
def listRotateLeft (h : Heap) (head : Nat) : Option Heap := do
  let e ← listEmpty h head
  if e then return h
  else
    let first ← next h head
    listMoveTail h first head

/-- `list_is_singular` (src/utils/list.h:207-210) -/
def listIsSingular (h : Heap) (head : Nat) : Option Bool := do
  let e ← listEmpty h head
  if e then return false
  else
    let n ← next h head
    let p ← prev h head
    return decide (n = p)

/-- `__list_cut_position` (src/utils/list.h:212-222) -/
def listCutPosition (h : Heap) (list head entry : Nat) : Option Heap := do
  let newFirst ← next h entry
  let n ← next h head
  let h ← setNext h list n
  let n ← next h list
  let h ← setPrev h n list
  let h ← setPrev h list entry
  let h ← setNext h entry list
  let h ← setNext h head newFirst
  setPrev h newFirst head

/-- `__list_splice` (src/utils/list.h:224-236) -/
def listSplice' (h : Heap) (list prv nxt : Nat) : Option Heap := do
  let first ← next h list
  let last ← prev h list
  let h ← setPrev h first prv
  let h ← setNext h prv first
  let h ← setNext h last nxt
  setPrev h nxt last

/-- `list_splice` (src/utils/list.h:243-248) -/
def listSplice (h : Heap) (list head : Nat) : Option Heap := do
  let e ← listEmpty h list
  if e then return h
  else
    let n ← next h head
    listSplice' h list head n

/-- `list_splice_tail` (src/utils/list.h:255-260) -/
def listSpliceTail (h : Heap) (list head : Nat) : Option Heap := do
  let e ← listEmpty h list
  if e then return h
  else
    let p ← prev h head
    listSplice' h list p head

/-! ### list_sort -/

/-- A call of the comparison function on two elements; both must be there. -/
def call (cmp : Nat → Nat → Int) (h : Heap) (a b : Nat) : Option Int :=
  match h a, h b with
  | some _, some _ => some (cmp a b)
  | _, _ => none

/-- `*tail = v` in `merge`, where `tail` is `&head` (`none`) or `&x->next`
(`some x`); the local `head` is part of the state. -/
def setTail (s : Heap × Nat) (tail : Option Nat) (v : Nat) : Option (Heap × Nat) :=
  match tail with
  | none => some (s.1, v)
  | some x => (setNext s.1 x v).map fun h => (h, s.2)

/-- The loop of `merge` (src/utils/list.c:23-42). -/
def mergeLoop (cmp : Nat → Nat → Int) (s : Heap × Nat) (tail : Option Nat) (a b : Nat) :
    Option (Heap × Nat) := do
  let c ← call cmp s.1 a b
  if c ≤ 0 then
    let s ← setTail s tail a
    let a' ← next s.1 a
    if a' = 0 then setTail s (some a) b
    else mergeLoop cmp s (some a) a' b
  else
    let s ← setTail s tail b
    let b' ← next s.1 b
    if b' = 0 then setTail s (some b) a
    else mergeLoop cmp s (some b) a b'
  partial_fixpoint

/-- `merge` (src/utils/list.c:18-44); the local `head` starts out undefined. -/
def merge (cmp : Nat → Nat → Int) (h : Heap) (a b : Nat) : Option (Heap × Nat) :=
  mergeLoop cmp (h, 0) none a b

/-- The first loop of `merge_final` (src/utils/list.c:60-81): the heap, `tail`
and the remainder `b`. -/
def mergeFinalLoop (cmp : Nat → Nat → Int) (h : Heap) (tail a b : Nat) :
    Option (Heap × Nat × Nat) := do
  let c ← call cmp h a b
  if c ≤ 0 then
    let h ← setNext h tail a
    let h ← setPrev h a tail
    let a' ← next h a
    if a' = 0 then return (h, a, b)
    else mergeFinalLoop cmp h a a' b
  else
    let h ← setNext h tail b
    let h ← setPrev h b tail
    let b' ← next h b
    if b' = 0 then return (h, b, a)
    else mergeFinalLoop cmp h b a b'
  partial_fixpoint

/-- The second loop of `merge_final` (src/utils/list.c:85-97): the heap and
`tail`.  Every 256th element the comparison function is called on `b` itself,
without using the result; it is a pure function here, so that call is left out. -/
def relink (h : Heap) (tail b : Nat) : Option (Heap × Nat) := do
  let h ← setPrev h b tail
  let b' ← next h b
  if b' = 0 then return (h, b)
  else relink h b b'
  partial_fixpoint

/-- `merge_final` (src/utils/list.c:54-101) -/
def mergeFinal (cmp : Nat → Nat → Int) (h : Heap) (head a b : Nat) : Option Heap := do
  let r ← mergeFinalLoop cmp h head a b
  let h ← setNext r.1 r.2.1 r.2.2
  let s ← relink h r.2.1 r.2.2
  let h ← setNext s.1 s.2 head
  setPrev h head s.2

/-- A `struct list_head **` of `list_sort`: `&pending` (`none`) or `&x->prev`. -/
def getSlot (h : Heap) (pending : Nat) : Option Nat → Option Nat
  | none => some pending
  | some x => prev h x

/-- `for (bits = count; bits & 1; bits >>= 1) tail = &(*tail)->prev`
(src/utils/list.c:221-222): the final `bits` and `tail`.  `&p->prev` with a
`NULL` `p` is already undefined. -/
def findSlot (h : Heap) (pending : Nat) (bits : Nat) (tail : Option Nat) :
    Option (Nat × Option Nat) := do
  if bits % 2 = 1 then
    let p ← getSlot h pending tail
    if p = 0 then none
    else findSlot h pending (bits / 2) (some p)
  else return (bits, tail)
  partial_fixpoint

/-- `*tail = v`: the heap and `pending`. -/
def putSlot (h : Heap) (pending : Nat) (tail : Option Nat) (v : Nat) : Option (Heap × Nat) :=
  match tail with
  | none => some (h, v)
  | some x => (setPrev h x v).map fun h => (h, pending)

/-- "Do the indicated merge" (src/utils/list.c:217-231): the heap and `pending`. -/
def mergeStep (cmp : Nat → Nat → Int) (h : Heap) (pending count : Nat) : Option (Heap × Nat) := do
  let bt ← findSlot h pending count none
  if bt.1 ≠ 0 then
    let a ← getSlot h pending bt.2
    let b ← prev h a
    let r ← merge cmp h b a
    let p ← prev r.1 b
    let h ← setPrev r.1 r.2 p
    putSlot h pending bt.2 r.2
  else return (h, pending)

/-- The first loop of `list_sort` (src/utils/list.c:216-239): the heap and
`pending`.  `count` is a `size_t`; it cannot overflow because a list has fewer
than 2^64 elements. -/
def sortLoop (cmp : Nat → Nat → Int) (h : Heap) (list pending count : Nat) :
    Option (Heap × Nat) := do
  let r ← mergeStep cmp h pending count
  let h ← setPrev r.1 list r.2
  let list' ← next h list
  let h ← setNext h list 0
  if list' = 0 then return (h, list)
  else sortLoop cmp h list' list (count + 1)
  partial_fixpoint

/-- The second loop of `list_sort` (src/utils/list.c:244-251): the heap,
`pending` and `list`. -/
def collapse (cmp : Nat → Nat → Int) (h : Heap) (pending list : Nat) : Option (Heap × Nat × Nat) := do
  let nxt ← prev h pending
  if nxt = 0 then return (h, pending, list)
  else
    let r ← merge cmp h pending list
    collapse cmp r.1 nxt r.2
  partial_fixpoint

/-- `list_sort` (src/utils/list.c:187-254) -/
def listSort (cmp : Nat → Nat → Int) (h : Heap) (head : Nat) : Option Heap := do
  let list ← next h head
  let last ← prev h head
  if list = last then return h
  else
    let last ← prev h head
    let h ← setNext h last 0
    let r ← sortLoop cmp h list 0 0
    let pending ← prev r.1 r.2
    let s ← collapse cmp r.1 pending r.2
    mergeFinal cmp s.1 head s.2.1 s.2.2

end Ulp.CList
