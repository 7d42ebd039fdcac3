import Verif.Model.TokenStore
/-!
# Uses of the store of tokens

The vocabulary of the statements about the store of address validation tokens.
-/

namespace Picoquic.Spec
open Picoquic Picoquic.TokenStore

/-- A record that can be stored: the lengths fit the fields of the record, and neither the name of the server
nor the token is empty. -/
structure Storable (t : Token) : Prop where
  expiry : t.expiry < 2 ^ 64
  sni : 1 ≤ t.sni.length ∧ t.sni.length < 2 ^ 16
  ip : t.ip.length < 2 ^ 8
  token : 1 ≤ t.token.length ∧ t.token.length < 2 ^ 16

/-- A use of the store: a token is stored for a server and an address at time `now`; a token is asked for a
server and an address (or any, if it is empty); the store is saved in a file, from which a new
process loads it. -/
inductive TokenOp
  | store (now : Nat) (sni ip token : Bytes)
  | get (now : Nat) (sni ip : Bytes) (mark : Bool)
  | restart (now later : Nat)
deriving DecidableEq, Repr

/-- When it happens. -/
def TokenOp.time : TokenOp → Nat
  | .store now _ _ _ => now
  | .get now _ _ _ => now
  | .restart now _ => now

/-- When it ends. -/
def TokenOp.last : TokenOp → Nat
  | .restart _ later => later
  | op => op.time

/-- The store after one use, and what it returns. -/
def tokenStep (s : List Token) : TokenOp → List Token × Option Bytes
  | .store now sni ip token => ((store now s sni ip token).1, none)
  | .get now sni ip mark => get now s sni ip mark
  | .restart now later => ((load later [] (save now s).1).1, none)

/-- The store after a history, from an empty store. -/
def tokenRun (ops : List TokenOp) : List Token := ops.foldl (fun s op => (tokenStep s op).1) []

/-- What each use of a history returned. -/
def tokenTrace (s : List Token) : List TokenOp → List (TokenOp × Option Bytes)
  | [] => []
  | op :: ops => (op, (tokenStep s op).2) :: tokenTrace (tokenStep s op).1 ops

/-- The use stores `x` for the server `sni`. -/
def isStoreOf (sni x : Bytes) : TokenOp → Bool
  | .store _ n _ y => decide (n = sni) && decide (y = x)
  | _ => false

/-- The use marks a token as used, and it returned `x` for the server `sni`. -/
def isMarkedReturnOf (sni x : Bytes) : TokenOp × Option Bytes → Bool
  | (.get _ n _ true, some y) => decide (n = sni) && decide (y = x)
  | _ => false

/-- How many times a history stored `x` for the server `sni`. -/
def timesStored (sni x : Bytes) (ops : List TokenOp) : Nat := ops.countP (isStoreOf sni x)

/-- How many times a history returned `x` for the server `sni` and marked it as used. -/
def timesUsed (sni x : Bytes) (ops : List TokenOp) : Nat := (tokenTrace [] ops).countP (isMarkedReturnOf sni x)

/-- A valid history: the time does not decrease, and the tokens stored are not empty, have a
server, and can be saved and loaded (`C23_file_violated` tells what happens otherwise). -/
inductive TokenHistory : Nat → List TokenOp → Prop
  | nil : TokenHistory 0 []
  | snoc {now : Nat} {ops : List TokenOp} {op : TokenOp} (h : TokenHistory now ops) (h1 : now ≤ op.time)
      (h2 : op.time ≤ op.last) (h3 : op.last + DAY < 2 ^ 64)
      (h4 : ∀ n sni ip token, op = .store n sni ip token →
        Storable ⟨n + DAY, sni, ip, token, false⟩ ∧ sni.length + ip.length + token.length ≤ 2002) :
      TokenHistory op.last (ops ++ [op])

end Picoquic.Spec
