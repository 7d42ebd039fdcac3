/-!
# Splay trees

Model of `picoquic/picosplay.c`. A tree of nodes linked by `left`, `right` and `parent` pointers is
an inductive binary tree; a pointer to a node of the tree is a *location* (`Loc`): the node with its
two subtrees, and the chain of its ancestors up to the root, which is what the `parent` pointers
give access to. Allocation failure is not modelled.
-/

namespace Picoquic.Splay

/-- A (sub)tree; `nil` is the `NULL` pointer. -/
inductive Tree (α : Type) where
  | nil : Tree α
  | node (left : Tree α) (value : α) (right : Tree α) : Tree α
deriving DecidableEq, Repr

/-- One ancestor of a node. `left p r`: we are the left child of the ancestor holding `p`, whose
right subtree is `r`. `right l p`: we are the right child of the ancestor holding `p`, whose left
subtree is `l`. -/
inductive Anc (α : Type) where
  | left (p : α) (r : Tree α) : Anc α
  | right (l : Tree α) (p : α) : Anc α
deriving DecidableEq, Repr

/-- A pointer to a node: its subtrees, its value, and its ancestors, parent first. -/
structure Loc (α : Type) where
  l : Tree α
  x : α
  r : Tree α
  up : List (Anc α)
deriving DecidableEq, Repr

variable {α : Type}

/-- Elements from first to last: the order in which `picosplay_first`/`picosplay_next` visit. -/
def Tree.toList : Tree α → List α
  | .nil => []
  | .node l a r => l.toList ++ a :: r.toList

/-- Hangs a subtree below one ancestor. -/
def Anc.plug (t : Tree α) : Anc α → Tree α
  | .left p r => .node t p r
  | .right l p => .node l p t

/-- The whole tree in which a location lies. -/
def Loc.tree (z : Loc α) : Tree α := z.up.foldl Anc.plug (.node z.l z.x z.r)

/-- `rotate(child)`, picosplay.c 289-305 (with `mark_gp`, 307-318): the node takes its parent's
place. C asserts that there is a parent; `none` is the failed assertion. -/
def rotate (z : Loc α) : Option (Loc α) :=
  match z.up with
  | [] => none
  | .left p pr :: up => some ⟨z.l, z.x, .node z.r p pr, up⟩
  | .right pl p :: up => some ⟨.node pl p z.l, z.x, z.r, up⟩

/-- The pointer to the parent. -/
def parent (z : Loc α) : Option (Loc α) :=
  match z.up with
  | [] => none
  | .left p pr :: up => some ⟨.node z.l z.x z.r, p, pr, up⟩
  | .right pl p :: up => some ⟨pl, p, .node z.l z.x z.r, up⟩

/-- `zigzig(x, p)`, picosplay.c 67-70, for two left children: rotate `p`, then `x`. After the
rotation of `p`, `x` is still the left child of `p`. -/
def zigzigLeft (z : Loc α) : Option (Loc α) := do
  let p ← parent z
  let p' ← rotate p
  -- `x` as a child of the rotated parent
  match p'.l with
  | .nil => none
  | .node l x r => rotate ⟨l, x, r, .left p'.x p'.r :: p'.up⟩

/-- `zigzig(x, p)`, picosplay.c 67-70, for two right children. -/
def zigzigRight (z : Loc α) : Option (Loc α) := do
  let p ← parent z
  let p' ← rotate p
  match p'.r with
  | .nil => none
  | .node l x r => rotate ⟨l, x, r, .right p'.l p'.x :: p'.up⟩

/-- `zigzag(x)`, picosplay.c 75-78. -/
def zigzag (z : Loc α) : Option (Loc α) := do
  let z' ← rotate z
  rotate z'

/-- One iteration of `splay`, picosplay.c 40-57, when the node has a parent. -/
def splayStep (z : Loc α) : Option (Loc α) :=
  match z.up with
  | [] => none
  | [_] => rotate z
  | .left _ _ :: .left _ _ :: _ => zigzigLeft z
  | .right _ _ :: .right _ _ :: _ => zigzigRight z
  | _ :: _ :: _ => zigzag z

/-- `splay(tree, x)`, picosplay.c 40-57; `fuel` bounds the number of iterations (the number of
ancestors is enough, see `splay_some`). `none` is a failed assertion. -/
def splayLoop : Nat → Loc α → Option (Loc α)
  | 0, z => match z.up with
    | [] => some z
    | _ => none
  | n + 1, z => match z.up with
    | [] => some z
    | _ => match splayStep z with
      | none => none
      | some z' => splayLoop n z'

/-- `splay(tree, x)`, picosplay.c 40-57: the location of `x`, now the root. -/
def splay (z : Loc α) : Option (Loc α) := splayLoop z.up.length z

/-- The descent loop of `picosplay_insert`, picosplay.c 113-131: the location of the new leaf. -/
def insertPos (cmp : α → α → Int) (a : α) : Tree α → List (Anc α) → Loc α
  | .nil, up => ⟨.nil, a, .nil, up⟩
  | .node l b r, up =>
    if cmp a b < 0 then insertPos cmp a l (.left b r :: up)
    else insertPos cmp a r (.right l b :: up)

/-- `picosplay_tree_t`: the root and the size. -/
structure STree (α : Type) where
  root : Tree α
  size : Int
deriving DecidableEq, Repr

/-- `picosplay_init_tree`, picosplay.c 81-88. -/
def STree.empty : STree α := ⟨.nil, 0⟩

/-- The tree below the root after a splay. -/
def Loc.subtree (z : Loc α) : Tree α := .node z.l z.x z.r

/-- `picosplay_insert`, picosplay.c 102-138. `none`: failed assertion. -/
def insert (cmp : α → α → Int) (t : STree α) (a : α) : Option (STree α) :=
  match splay (insertPos cmp a t.root []) with
  | none => none
  | some z => some ⟨z.subtree, t.size + 1⟩

/-- The descent loop of `picosplay_find`, picosplay.c 143-154. -/
def findPos (cmp : α → α → Int) (a : α) : Tree α → List (Anc α) → Option (Loc α)
  | .nil, _ => none
  | .node l b r, up =>
    if cmp a b = 0 then some ⟨l, b, r, up⟩
    else if cmp a b < 0 then findPos cmp a l (.left b r :: up)
    else findPos cmp a r (.right l b :: up)

/-- `picosplay_find`, picosplay.c 141-162: the tree after the splay and the element found. -/
def find (cmp : α → α → Int) (t : STree α) (a : α) : Option (STree α × Option (Loc α)) :=
  match findPos cmp a t.root [] with
  | none => some (t, none)
  | some z => match splay z with
    | none => none
    | some z' => some (⟨z'.subtree, t.size⟩, some z')

/-- `picosplay_find_previous`, picosplay.c 165-186: the element found. -/
def findPrevLoop (cmp : α → α → Int) (a : α) : Tree α → Option α → Option α
  | .nil, previous => previous
  | .node l b r, previous =>
    if cmp a b = 0 then some b
    else if cmp a b < 0 then findPrevLoop cmp a l previous
    else findPrevLoop cmp a r (some b)

/-- `picosplay_find_previous`, picosplay.c 165-186. -/
def findPrevious (cmp : α → α → Int) (t : STree α) (a : α) : Option α :=
  findPrevLoop cmp a t.root none

/-- Removal of the leftmost node of a non-empty tree: the node reached by `leftmost`
(picosplay.c 320-327) replaced by its right subtree (picosplay.c 207-214). -/
def takeLeftmost : Tree α → α → Tree α → α × Tree α
  | .nil, a, r => (a, r)
  | .node ll b lr, a, r =>
    let (m, l') := takeLeftmost ll b lr
    (m, .node l' a r)

/-- `picosplay_delete_hint`, picosplay.c 195-222, on a location. In the last case, when the leftmost
node of the right subtree is the right child itself, it keeps its own right subtree; this is what
`takeLeftmost` returns for a node without left child. -/
def deleteHint (t : STree α) (z : Loc α) : Option (STree α) :=
  match splay z with
  | none => none
  | some z' =>
    match z'.l, z'.r with
    | .nil, r => some ⟨r, t.size - 1⟩
    | .node ll lx lr, .nil => some ⟨.node ll lx lr, t.size - 1⟩
    | .node ll lx lr, .node rl rx rr =>
      let (m, r') := takeLeftmost rl rx rr
      some ⟨.node (.node ll lx lr) m r', t.size - 1⟩

/-- `picosplay_delete`, picosplay.c 189-192. -/
def delete (cmp : α → α → Int) (t : STree α) (a : α) : Option (STree α) :=
  match find cmp t a with
  | none => none
  | some (t', none) => some t'
  | some (t', some z) => deleteHint t' z

/-- `leftmost`, picosplay.c 320-327, as a location, going down from a node. -/
def leftmostFrom : Tree α → α → Tree α → List (Anc α) → Loc α
  | .nil, a, r, up => ⟨.nil, a, r, up⟩
  | .node ll b lr, a, r, up => leftmostFrom ll b lr (.left a r :: up)

/-- `rightmost`, picosplay.c 329-336. -/
def rightmostFrom (l : Tree α) (a : α) : Tree α → List (Anc α) → Loc α
  | .nil, up => ⟨l, a, .nil, up⟩
  | .node rl b rr, up => rightmostFrom rl b rr (.right l a :: up)

/-- `picosplay_first`, picosplay.c 233-235. -/
def first (t : STree α) : Option (Loc α) :=
  match t.root with
  | .nil => none
  | .node l a r => some (leftmostFrom l a r [])

/-- `picosplay_last`, picosplay.c 258-260. -/
def last (t : STree α) : Option (Loc α) :=
  match t.root with
  | .nil => none
  | .node l a r => some (rightmostFrom l a r [])

/-- The climbing loop of `picosplay_next`, picosplay.c 253-255: `t` is the subtree we come from. -/
def climbNext : Tree α → List (Anc α) → Option (Loc α)
  | _, [] => none
  | t, .left p r :: up => some ⟨t, p, r, up⟩
  | t, .right l p :: up => climbNext (.node l p t) up

/-- `picosplay_next`, picosplay.c 250-256. -/
def next (z : Loc α) : Option (Loc α) :=
  match z.r with
  | .node rl b rr => some (leftmostFrom rl b rr (.right z.l z.x :: z.up))
  | .nil => climbNext (.node z.l z.x z.r) z.up

/-- The climbing loop of `picosplay_previous`, picosplay.c 240-242. -/
def climbPrev : Tree α → List (Anc α) → Option (Loc α)
  | _, [] => none
  | t, .right l p :: up => some ⟨l, p, t, up⟩
  | t, .left p r :: up => climbPrev (.node t p r) up

/-- `picosplay_previous`, picosplay.c 237-243. -/
def previous (z : Loc α) : Option (Loc α) :=
  match z.l with
  | .node ll b lr => some (rightmostFrom ll b lr (.left z.x z.r :: z.up))
  | .nil => climbPrev (.node z.l z.x z.r) z.up

/-- `picosplay_empty_tree`, picosplay.c 224-231: deletes the root until there is none; `fuel`
bounds the number of iterations. -/
def emptyTree : Nat → STree α → Option (STree α)
  | 0, t => match t.root with
    | .nil => some t
    | _ => none
  | n + 1, t => match t.root with
    | .nil => some t
    | .node l a r => match deleteHint t ⟨l, a, r, []⟩ with
      | none => none
      | some t' => emptyTree n t'

/-- The comparators returning the difference of two `uint64_t` as an `int64_t`:
`picoquic_stream_data_node_compare` (quicctx.c 3153-3157), `picoquic_stream_node_compare`
(quicctx.c 3223-3227), `picoquic_sack_item_compare` (sacks.c 47-53). -/
def diffCompare (l r : Nat) : Int := (BitVec.ofNat 64 l - BitVec.ofNat 64 r).toInt

/-- `picoquic_wake_list_compare`, quicctx.c 1355-1361. -/
def wakeCompare (l r : Nat) : Int := if l < r then -1 else if l > r then 1 else 0

/-- `picoquic_registered_token_compare`, quicctx.c 520-544: by time, then by hash. -/
def tokenCompare (l r : Nat × Nat) : Int :=
  if l.1 = r.1 then (if l.2 > r.2 then 1 else if l.2 < r.2 then -1 else 0)
  else if l.1 > r.1 then 1 else -1

end Picoquic.Splay
