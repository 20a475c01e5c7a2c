import Verif.Base

/-!
# Doubly linked lists (model)

The intrusive lists of /repo/src/voucher/array.h and their two owners, the binary array list
(/repo/src/voucher/array.c) and the key/value list (/repo/src/voucher/keyvalue.c), on a heap
of nodes and a heap of data blocks.  Addresses are never reused, hence every use of a freed
node or block is recognised as undefined behaviour.
-/

namespace Brski.DlList
open Outcome

/-- A list element or list head: the embedded `struct dl_list`
(/repo/src/voucher/array.h:52-56), the data blocks it owns in the order in which they are freed
(`arr`, or `key` and `value`) and the plain fields.  `none` is NULL.
`struct BinaryArrayList` /repo/src/voucher/array.h:113-118, `struct keyvalue_list`
/repo/src/voucher/keyvalue.h. -/
structure Node where
  next : Option Nat
  prev : Option Nat
  el : Option Nat
  own : List Nat
  length : Nat
  flags : Int
deriving Repr, DecidableEq

/-- The memory: nodes and data blocks that are live; addresses from `fresh` on have not been
handed out (`sys_zalloc`, `sys_free`, /repo/src/utils/os.h:60-90). -/
structure Mem where
  fresh : Nat
  node : Nat → Option Node
  dat : Nat → Option Bytes

/-- Read access to a node (`p->…`): NULL and dead nodes are undefined
(any `->` in /repo/src/voucher/array.h:58-111). -/
def Mem.get (m : Mem) (p : Option Nat) : Outcome Node :=
  match p with
  | none => .ub
  | some p => match m.node p with
    | some n => .ok n
    | none => .ub

/-- Write access to a node (`p->… = …`): NULL and dead nodes are undefined
(any `->` in /repo/src/voucher/array.h:58-111). -/
def Mem.upd (m : Mem) (p : Option Nat) (f : Node → Node) : Outcome Mem :=
  match p with
  | none => .ub
  | some p => match m.node p with
    | some n => .ok { m with node := fun q => if q = p then some (f n) else m.node q }
    | none => .ub

/-- `sys_zalloc(sizeof(struct …))` (/repo/src/voucher/array.c:22,69,
/repo/src/voucher/keyvalue.c:30,85): a zeroed node. -/
def Mem.newNode (m : Mem) : Mem × Nat :=
  ({ m with fresh := m.fresh + 1,
            node := fun q => if q = m.fresh then some ⟨none, none, none, [], 0, 0⟩ else m.node q },
   m.fresh)

/-- A new data block with the given content (`sys_memdup`, `sys_strdup`,
/repo/src/utils/os.c:39-70). -/
def Mem.newData (m : Mem) (b : Bytes) : Mem × Nat :=
  ({ m with fresh := m.fresh + 1, dat := fun q => if q = m.fresh then some b else m.dat q }, m.fresh)

/-- `sys_free` of a data block; a dead block is undefined (/repo/src/utils/os.h:60-90). -/
def Mem.freeData (m : Mem) (p : Nat) : Outcome Mem :=
  match m.dat p with
  | some _ => .ok { m with dat := fun q => if q = p then none else m.dat q }
  | none => .ub

/-- `sys_free` of a node; a dead node is undefined (/repo/src/utils/os.h:60-90). -/
def Mem.freeNode (m : Mem) (p : Nat) : Outcome Mem :=
  match m.node p with
  | some _ => .ok { m with node := fun q => if q = p then none else m.node q }
  | none => .ub

/-- `dl_list_init`, /repo/src/voucher/array.h:77-82. -/
def init (m : Mem) (l : Nat) : Outcome Mem :=
  (m.upd (some l) fun n => { n with next := some l }).bind fun m =>
  (m.upd (some l) fun n => { n with prev := some l }).bind fun m =>
  m.upd (some l) fun n => { n with el := some l }

/-- `dl_list_add_tail`, /repo/src/voucher/array.h:58-67, statement by statement. -/
def addTail (m : Mem) (list item : Nat) : Outcome Mem :=
  (m.get (some list)).bind fun n =>
  let prev := n.prev
  (m.get prev).bind fun pn =>
  (m.upd (some item) fun n => { n with next := pn.next }).bind fun m =>
  (m.upd (some item) fun n => { n with prev := prev }).bind fun m =>
  (m.get prev).bind fun pn =>
  (m.upd pn.next fun n => { n with prev := some item }).bind fun m =>
  (m.upd prev fun n => { n with next := some item }).bind fun m =>
  (m.get prev).bind fun pn =>
  m.upd pn.next fun n => { n with el := some item }

/-- `dl_list_del`, /repo/src/voucher/array.h:84-90, statement by statement. -/
def del (m : Mem) (item : Nat) : Outcome Mem :=
  (m.get (some item)).bind fun n =>
  (m.upd n.next fun x => { x with prev := n.prev }).bind fun m =>
  (m.get (some item)).bind fun n =>
  (m.upd n.prev fun x => { x with next := n.next }).bind fun m =>
  (m.upd (some item) fun x => { x with next := none }).bind fun m =>
  m.upd (some item) fun x => { x with prev := none }

/-- `dl_list_first`, /repo/src/voucher/array.h:92-97: the element pointer of the first entry,
`none` is NULL. -/
def first (m : Mem) (list : Nat) : Outcome (Option Nat) :=
  (m.get (some list)).bind fun n =>
  if n.next = some list then .ok none
  else (m.get n.next).bind fun x => .ok x.el

/-- The loop of `dl_list_len`, /repo/src/voucher/array.h:69-75.  `fuel` bounds the number of
iterations; running out of it stands for a loop that does not end.  The counter is an `int`,
its overflow is undefined. -/
def lenLoop (m : Mem) (list : Nat) : Nat → Option Nat → Nat → Outcome Nat
  | 0, _, _ => .ub
  | fuel + 1, item, count =>
    if item = some list then .ok count
    else if count < 2147483647 then
      (m.get item).bind fun n => lenLoop m list fuel n.next (count + 1)
    else .ub

/-- `dl_list_len`, /repo/src/voucher/array.h:69-75. -/
def len (m : Mem) (list : Nat) : Outcome Nat :=
  (m.get (some list)).bind fun n => lenLoop m list (m.fresh + 1) n.next 0

/-- The loop of `dl_list_for_each`, /repo/src/voucher/array.h:102-105: the element pointers in
the order of the visits. -/
def eachLoop (m : Mem) (list : Nat) : Nat → Option Nat → Outcome (List Nat)
  | 0, _ => .ub
  | fuel + 1, item =>
    if item = some list then .ok []
    else
      (m.get item).bind fun n =>
      (m.get n.next).bind fun x =>
      (eachLoop m list fuel x.el).bind fun r =>
      match item with
      | some i => .ok (i :: r)
      | none => .ub

/-- `dl_list_for_each`, /repo/src/voucher/array.h:102-105. -/
def each (m : Mem) (list : Nat) : Outcome (List Nat) :=
  (m.get (some list)).bind fun n =>
  (m.get n.next).bind fun x => eachLoop m list (m.fresh + 1) x.el

/-- The loop of `dl_list_for_each_safe`, /repo/src/voucher/array.h:107-111: the successor is read
before the body runs (here the body does not change the list). -/
def eachSafeLoop (m : Mem) (list : Nat) : Nat → Option Nat → Option Nat → Outcome (List Nat)
  | 0, _, _ => .ub
  | fuel + 1, item, nxt =>
    if item = some list then .ok []
    else
      (m.get nxt).bind fun n =>
      (m.get n.next).bind fun x =>
      (eachSafeLoop m list fuel nxt x.el).bind fun r =>
      match item with
      | some i => .ok (i :: r)
      | none => .ub

/-- `dl_list_for_each_safe`, /repo/src/voucher/array.h:107-111. -/
def eachSafe (m : Mem) (list : Nat) : Outcome (List Nat) :=
  (m.get (some list)).bind fun n =>
  (m.get n.next).bind fun x =>
  (m.get x.el).bind fun i =>
  (m.get i.next).bind fun y => eachSafeLoop m list (m.fresh + 1) x.el y.el

/-- Freeing the owned data blocks in order (/repo/src/voucher/array.c:34-36,
/repo/src/voucher/keyvalue.c:42-47). -/
def freeOwned (m : Mem) : List Nat → Outcome Mem
  | [] => .ok m
  | d :: ds => (m.freeData d).bind fun m => freeOwned m ds

/-- `free_array_list_el`, /repo/src/voucher/array.c:32-40, and `free_keyvalue_list_el`,
/repo/src/voucher/keyvalue.c:40-51, for a non-NULL element. -/
def freeEl (m : Mem) (el : Nat) : Outcome Mem :=
  (m.get (some el)).bind fun n =>
  (freeOwned m n.own).bind fun m =>
  (del m el).bind fun m => m.freeNode el

/-- The loop of `free_array_list`, /repo/src/voucher/array.c:49-52, and `free_keyvalue_list`,
/repo/src/voucher/keyvalue.c:60-63. -/
def freeLoop (list : Nat) : Nat → Mem → Outcome Mem
  | 0, _ => .ub
  | fuel + 1, m =>
    (first m list).bind fun f =>
    match f with
    | none => .ok m
    | some el => (freeEl m el).bind fun m => freeLoop list fuel m

/-- `free_array_list`, /repo/src/voucher/array.c:42-55, and `free_keyvalue_list`,
/repo/src/voucher/keyvalue.c:53-66; `none` is NULL. -/
def freeList (m : Mem) (list : Option Nat) : Outcome Mem :=
  match list with
  | none => .ok m
  | some l => (freeLoop l (m.fresh + 1) m).bind fun m => freeEl m l

/-- Which allocations of a call succeed, one index per allocation site
(/repo/src/utils/os.h:60-90). -/
abbrev Oracle := Nat → Bool

/-- `init_array_list`, /repo/src/voucher/array.c:19-30, and `init_keyvalue_list`,
/repo/src/voucher/keyvalue.c:27-38; `none` is NULL. -/
def initList (al : Oracle) (m : Mem) : Outcome (Mem × Option Nat) :=
  if al 0 then
    (init m.newNode.1 m.newNode.2).bind fun m' => .ok (m', some m.newNode.2)
  else .ok (m, none)

/-- `sys_memdup` of the first `length` bytes of a block with content `arr`,
/repo/src/utils/os.c:39-53; reading outside the block is undefined.  The flag tells whether the
allocation succeeds; `none` is NULL. -/
def memdup (al : Bool) (m : Mem) (arr : Bytes) (length : Nat) : Outcome (Mem × Option Nat) :=
  if al then
    if length ≤ arr.length then
      let r := m.newData (arr.take length)
      .ok (r.1, some r.2)
    else .ub
  else .ok (m, none)

/-- `push_array_list`, /repo/src/voucher/array.c:57-88; `none` is NULL, the result is the new
memory and the return value (`true` for 0). -/
def pushArray (al : Oracle) (m : Mem) (list : Option Nat) (arr : Option Bytes) (length : Nat)
    (flags : Int) : Outcome (Mem × Bool) :=
  match list, arr with
  | none, _ => .ok (m, false)
  | some _, none => .ok (m, false)
  | some list, some arr =>
    if al 0 then
      let el := m.newNode.2
      (memdup (al 1) m.newNode.1 arr length).bind fun r =>
      match r.2 with
      | none => (freeEl r.1 el).bind fun m => .ok (m, false)
      | some d =>
        (r.1.upd (some el) fun n => { n with own := [d], length := length, flags := flags }).bind fun m =>
        (addTail m list el).bind fun m => .ok (m, true)
    else .ok (m, false)

/-- `push_keyvalue_list`, /repo/src/voucher/keyvalue.c:68-109, for C strings; `none` is NULL. -/
def pushKv (al : Oracle) (m : Mem) (list : Option Nat) (key value : Option Bytes) :
    Outcome (Mem × Bool) :=
  match list, key, value with
  | some list, some key, some value =>
    if al 0 then
      let el := m.newNode.2
      (memdup (al 1) m.newNode.1 key key.length).bind fun r =>
      match r.2 with
      | none => (freeEl r.1 el).bind fun m => .ok (m, false)
      | some dk =>
        (r.1.upd (some el) fun n => { n with own := [dk] }).bind fun m =>
        (memdup (al 2) m value value.length).bind fun r =>
        match r.2 with
        | none => (freeEl r.1 el).bind fun m => .ok (m, false)
        | some dv =>
          (r.1.upd (some el) fun n => { n with own := [dk, dv] }).bind fun m =>
          (addTail m list el).bind fun m => .ok (m, true)
    else .ok (m, false)
  | _, _, _ => .ok (m, false)

/-- Reading a sequence of data blocks; a dead block is undefined
(/repo/src/voucher/crypto_ossl.c:1199,1253, /repo/src/voucher/serialize.c:72). -/
def readBlocks (m : Mem) : List Nat → Outcome (List Bytes)
  | [] => .ok []
  | d :: ds => match m.dat d with
    | some b => (readBlocks m ds).bind fun r => .ok (b :: r)
    | none => .ub

/-- What a traversal reads from an element: its data blocks, length and flags
(`el->arr`, `el->length`, `el->flags`, `el->key`, `el->value` in the loops at
/repo/src/voucher/crypto_ossl.c:1199,1253, /repo/src/voucher/serialize.c:72,
/repo/src/brski/config.c:691). -/
def readEl (m : Mem) (el : Nat) : Outcome (List Bytes × Nat × Int) :=
  (m.get (some el)).bind fun n =>
  (readBlocks m n.own).bind fun ds => .ok (ds, n.length, n.flags)

/-- Reading a sequence of elements (loops at /repo/src/voucher/crypto_ossl.c:1199,1253,
/repo/src/voucher/serialize.c:72). -/
def readEls (m : Mem) : List Nat → Outcome (List (List Bytes × Nat × Int))
  | [] => .ok []
  | e :: es => (readEl m e).bind fun x => (readEls m es).bind fun r => .ok (x :: r)

/-- Traversal of a list reading every element (loops at
/repo/src/voucher/crypto_ossl.c:1199,1253, /repo/src/voucher/serialize.c:72). -/
def contents (m : Mem) (list : Nat) : Outcome (List (List Bytes × Nat × Int)) :=
  (each m list).bind fun els => readEls m els

end Brski.DlList
