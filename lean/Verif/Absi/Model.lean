/-!
# The abstraction of an instance that is kept for learning

Transcription of `HLPBindingMap::init_from_hlp`, `add_unbound_values` and `build_f_ihlp` (`/repo/r_exec/binding_map.cpp:983-1018`,
`1100-1163`) as far as the places of the variables go, and of `BindingMap::abstract_f_ihlp` (`369-412`), which the auto-focus applies
to instances of composite states (`/repo/r_exec/auto_focus.cpp:381-402`) to keep them with the bindings they were made with
(`/repo/r_exec/cst_controller.cpp:718-727`).

Instances are given by their parts: that codes have them where they are looked for is C146 and C160.  Structures in template
arguments have variables in them and no structures.  Values that bindings have are numbers, whatever their kind; all variables have
one.  There are less than 256 variables.
-/
namespace Verif.Absi

abbrev Val := Nat

/-- A template argument of a composite state or a model: a variable, or a structure (`ti` or another one) of variables. -/
inductive TArg where
  | var (i : Nat)
  | st (ti : Bool) (is : List Nat)
deriving DecidableEq

/-- A composite state or a model: template arguments, the variables of the times of its first fact, and the variables in its
packed code, as they come. -/
structure Hlp where
  id : Nat
  tpl : List TArg
  after : Nat
  before : Nat
  vars : List Nat
deriving DecidableEq

/-- `add_unbound_value` (648-653): the size of the map. -/
def add (size i : Nat) : Nat := if size ≤ i then i + 1 else size

/-- `add_unbound_values` (983-994). -/
def addTpl : Nat → List TArg → Nat
  | n, [] => n
  | n, .var i :: ts => addTpl (add n i) ts
  | n, .st _ is :: ts => addTpl (is.foldl add n) ts

/-- `first_index_` (1000). -/
def first (h : Hlp) : Nat := addTpl 0 h.tpl

/-- `map_.size()` after `init_from_hlp` (996-1018). -/
def size (h : Hlp) : Nat := h.vars.foldl add (first h)

inductive Word where
  | val (v : Val)
  | vl (i : Nat)
deriving DecidableEq

inductive Arg where
  | w (x : Word)
  | st (ti : Bool) (xs : List Word)
deriving DecidableEq

inductive Op where
  | icst | imdl
deriving DecidableEq

/-- A fact of an instance. -/
structure Inst where
  anti : Bool
  after : Val
  before : Val
  op : Op
  ref : Nat
  tpl : List Arg
  exposed : List Arg
  wr : Bool
  thr : Nat
deriving DecidableEq

/-- `build_ihlp_structure` (1100-1126). -/
def tplArg (B : Nat → Val) : TArg → Arg
  | .var i => .w (.val (B i))
  | .st true is => .st true (is.map .vl)
  | .st false is => .st false (is.map fun i => .val (B i))

/-- The loop over the map (1146-1154): the variables from `i` on, of `n`. -/
def expo (a b : Nat) : Nat → Nat → List Nat
  | _, 0 => []
  | i, n + 1 => if i = a then expo a b (i + 1) n else if i = b then expo a b (i + 1) n else i :: expo a b (i + 1) n

/-- `build_f_ihlp` (1128-1163); the set says how many of the words that are written belong to it. -/
def build (op : Op) (h : Hlp) (B : Nat → Val) (wr : Bool) : Inst :=
  { anti := false, after := B h.after, before := B h.before, op := op, ref := h.id
    tpl := h.tpl.map (tplArg B)
    exposed := ((expo h.after h.before (first h) (size h - first h)).take (size h - first h - 2)).map fun i => .w (.val (B i))
    wr := wr, thr := 1 }

/-- `VLPointer(map_index++)`, `n` times. -/
def count (i : Nat) : Nat → List Arg
  | 0 => []
  | n + 1 => .w (.vl i) :: count (i + 1) n

/-- `abstract_f_ihlp` (369-412). -/
def abstracted (f : Inst) : Inst :=
  { anti := f.anti, after := f.after, before := f.before
    op := if f.op = .icst then .icst else .imdl
    ref := f.ref
    tpl := count 0 f.tpl.length
    exposed := count f.tpl.length f.exposed.length
    wr := f.wr, thr := f.thr }

end Verif.Absi
