/-!
# r_code::list and r_code::time_buffer

Transcription of `/repo/r_code/list.h` (the doubly linked list over a cell vector with a free
list) and of the iteration of `/repo/r_code/time_buffer.h`.

Representation: an `int32` cell index is an `Option Nat`, `null_ == -1` being `none`.  The
`std::vector<cell>` is a size `n` and a content function that matters only below `n`.  Any access
outside the vector (or through `null_`) is undefined behaviour: the operation returns `none`.
The two `uint32` counters are natural numbers (no wrap-around below 2^32 cells).
-/
namespace Verif.CellList

variable {α : Type}

/-- `list<T>::cell` (list.h:104-110). -/
structure Cell (α : Type) where
  next : Option Nat
  prev : Option Nat
  data : α

/-- The data members of `list<T>` (list.h:112-118). -/
structure St (α : Type) where
  n : Nat
  cell : Nat → Option (Cell α)      -- contents below `n`; `none` beyond
  head : Option Nat
  tail : Option Nat
  free : Option Nat
  used : Nat
  freeCount : Nat

/-- Constructor (list.h:201) and `clear` (list.h:205-210). -/
def empty : St α := ⟨0, fun _ => none, none, none, none, 0, 0⟩

/-- `cells_[i]` for reading. -/
def rd (s : St α) (i : Option Nat) : Option (Cell α) := i.bind s.cell

/-- Assignment to a cell that exists. -/
def wr (s : St α) (i : Nat) (c : Cell α) : St α :=
  { s with cell := fun j => if j = i then some c else s.cell j }

/-- `push_back_free_cell` (list.h:119-128). -/
def pushBackFreeCell (s : St α) (t : α) : Option (St α) := do
  let f ← s.free
  let c ← rd s s.free
  let s := { s with free := c.next, freeCount := s.freeCount - 1 }
  let s := wr s f ⟨none, s.tail, t⟩
  pure { s with tail := some f }

/-- `push_back_new_cell` (list.h:130-138). -/
def pushBackNewCell (s : St α) (t : α) : St α :=
  let s := wr { s with n := s.n + 1 } s.n ⟨none, s.tail, t⟩
  { s with tail := some (s.n - 1) }

/-- `update_used_cells_tail_state` (list.h:140-147). -/
def updateTail (s : St α) : Option (St α) := do
  let c ← rd s s.tail
  let s ← match c.prev with
    | none => pure s
    | some p => do
      let d ← rd s (some p)
      pure (wr s p { d with next := s.tail })
  let s := if s.head = none then { s with head := s.tail } else s
  pure { s with used := s.used + 1 }

/-- `push_front_free_cell` (list.h:149-158). -/
def pushFrontFreeCell (s : St α) (t : α) : Option (St α) := do
  let f ← s.free
  let c ← rd s s.free
  let s := { s with free := c.next, freeCount := s.freeCount - 1 }
  let s := wr s f ⟨s.head, none, t⟩
  pure { s with head := some f }

/-- `push_front_new_cell` (list.h:160-168). -/
def pushFrontNewCell (s : St α) (t : α) : St α :=
  let s := wr { s with n := s.n + 1 } s.n ⟨s.head, none, t⟩
  { s with head := some (s.n - 1) }

/-- `update_used_cells_head_state` (list.h:170-177). -/
def updateHead (s : St α) : Option (St α) := do
  let c ← rd s s.head
  let s ← match c.next with
    | none => pure s
    | some p => do
      let d ← rd s (some p)
      pure (wr s p { d with prev := s.head })
  let s := if s.tail = none then { s with tail := s.head } else s
  pure { s with used := s.used + 1 }

/-- First half of `__erase(c)`, with `x = cells_[c]` (list.h:182-185). -/
def bypassLeft (s : St α) (x : Cell α) : Option (St α) :=
  match x.prev with
  | some p => do
    let d ← rd s (some p)
    pure (wr s p { d with next := x.next })
  | none => pure { s with head := x.next }

/-- Second half of `__erase(c)`, with `x = cells_[c]` (list.h:186-189). -/
def bypassRight (s : St α) (x : Cell α) : Option (St α) :=
  match x.next with
  | some q => do
    let d ← rd s (some q)
    pure (wr s q { d with prev := x.prev })
  | none => pure { s with tail := x.prev }

/-- `__erase(c)` (list.h:179-193). -/
def eraseCell (s : St α) (c : Nat) : Option (St α) := do
  let x ← rd s (some c)
  let s ← bypassLeft s x
  let x ← rd s (some c)
  let s ← bypassRight s x
  let x ← rd s (some c)
  let s := wr s c { x with next := s.free }
  pure { s with free := some c, freeCount := s.freeCount + 1, used := s.used - 1 }

/-- `_erase(c)` (list.h:194-199): also returns the successor. -/
def eraseNext (s : St α) (c : Nat) : Option (Option Nat × St α) := do
  let x ← rd s (some c)
  let s' ← eraseCell s c
  pure (x.next, s')

/-- `push_back(t)` (list.h:211-218). -/
def pushBack (s : St α) (t : α) : Option (St α) := do
  let s ← if s.freeCount ≠ 0 then pushBackFreeCell s t else pure (pushBackNewCell s t)
  updateTail s

/-- `push_back(t, location)` (list.h:219-231). -/
def pushBackLoc (s : St α) (t : α) : Option (Option Nat × St α) := do
  if s.freeCount ≠ 0 then
    let loc := s.free
    let s ← pushBackFreeCell s t
    let s ← updateTail s
    pure (loc, s)
  else
    let s := pushBackNewCell s t
    let loc := s.tail
    let s ← updateTail s
    pure (loc, s)

/-- `push_front(t)` (list.h:232-239). -/
def pushFront (s : St α) (t : α) : Option (St α) := do
  let s ← if s.freeCount ≠ 0 then pushFrontFreeCell s t else pure (pushFrontNewCell s t)
  updateHead s

/-- `push_front(t, location)` (list.h:240-252; sic, 249: `location = used_cells_tail_`). -/
def pushFrontLoc (s : St α) (t : α) : Option (Option Nat × St α) := do
  if s.freeCount ≠ 0 then
    let loc := s.free
    let s ← pushFrontFreeCell s t
    let s ← updateHead s
    pure (loc, s)
  else
    let s := pushFrontNewCell s t
    let loc := s.tail
    let s ← updateHead s
    pure (loc, s)

/-- Iterating from a cell to `end()` with `operator++` (list.h:276-280, 301-305): the positions
and elements met.  The fuel bounds the number of steps; running out is reported as `none`. -/
def iterFrom (s : St α) : Nat → Option Nat → Option (List (Nat × α))
  | _, none => some []
  | 0, some _ => none
  | k + 1, some i => do
    let c ← s.cell i
    let r ← iterFrom s k c.next
    pure ((i, c.data) :: r)

/-- What a `for (i = l.begin(); i != l.end(); ++i)` loop sees (at most `n` distinct cells). -/
def entries (s : St α) : Option (List (Nat × α)) := iterFrom s s.n s.head

/-- `remove(t)` (list.h:326-337): scan with the fuel of a full iteration, erase the first equal. -/
def removeFrom [DecidableEq α] (s : St α) (t : α) : Nat → Option Nat → Option (St α)
  | _, none => some s
  | 0, some _ => none
  | k + 1, some i => do
    let c ← s.cell i
    if c.data = t then eraseCell s i else removeFrom s t k c.next

def remove [DecidableEq α] (s : St α) (t : α) : Option (St α) := removeFrom s t s.n s.head

/-- Erasing through an iterator advanced `k` times from `begin()` (list.h:323); at `end()` the
caller does nothing. -/
def eraseNthFrom (s : St α) : Nat → Option Nat → Option (St α)
  | _, none => some s
  | 0, some i => eraseCell s i
  | k + 1, some i => do
    let c ← s.cell i
    eraseNthFrom s k c.next

def eraseNth (s : St α) (k : Nat) : Option (St α) := eraseNthFrom s k s.head

/-! ### time_buffer -/

/-- The `check:` loop of `time_buffer::iterator::operator++` (time_buffer.h:120-128): erase dead
cells until a live one or the end. -/
def skipDead (dead : α → Bool) : Nat → St α → Option Nat → Option (Option Nat × St α)
  | _, s, none => some (none, s)
  | 0, _, some _ => none
  | k + 1, s, some i => do
    let c ← s.cell i
    if dead c.data then
      let (nx, s') ← eraseNext s i
      skipDead dead k s' nx
    else pure (some i, s)

/-- A full walk `for (i = b.begin(now); i != b.end(); ++i)` (time_buffer.h:139-143, 113-131):
`begin` returns the head unchecked. Returns the elements yielded and the final buffer. `dead`
stands for `IsInvalidated()(x, time_reference, thz)`. -/
def walk (dead : α → Bool) : Nat → St α → Option Nat → Option (List α × St α)
  | _, s, none => some ([], s)
  | 0, _, some _ => none
  | k + 1, s, some i => do
    let c ← s.cell i
    let (nx, s') ← skipDead dead k s c.next
    let (ys, s'') ← walk dead k s' nx
    pure (c.data :: ys, s'')

def walkAll (dead : α → Bool) (s : St α) : Option (List α × St α) := walk dead s.n s s.head

end Verif.CellList
