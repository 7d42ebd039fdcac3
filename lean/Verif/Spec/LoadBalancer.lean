import Verif.Model.LoadBalancer
import Verif.Spec.Varint
/-!
# Specification of connection IDs for load balancers

The text of a configuration, for example `0N16S8-0102-` and 32 hexadecimal digits, and the positions of the server ID.
-/

namespace Picoquic.Spec

open Picoquic.LoadBalancer

/-- The hexadecimal digits and their values. -/
def hexDigits : List (Char × Nat) :=
  [('0', 0), ('1', 1), ('2', 2), ('3', 3), ('4', 4), ('5', 5), ('6', 6), ('7', 7), ('8', 8), ('9', 9),
   ('a', 10), ('b', 11), ('c', 12), ('d', 13), ('e', 14), ('f', 15),
   ('A', 10), ('B', 11), ('C', 12), ('D', 13), ('E', 14), ('F', 15)]

/-- The text is made of two hexadecimal digits for each byte, the high one first. -/
def IsHex : List Char → Bytes → Prop
  | [], bs => bs = []
  | [_], _ => False
  | x :: y :: cs, bs => ∃ h l b bs', bs = b :: bs' ∧ (x, h) ∈ hexDigits ∧ (y, l) ∈ hexDigits ∧ b.toNat = 16 * h + l ∧
      IsHex cs bs'

/-- The text is made of decimal digits. -/
def AllDigits (cs : List Char) : Prop := ∀ c ∈ cs, '0' ≤ c ∧ c ≤ '9'

/-- The number written in decimal; zero when there is no digit. -/
def decimalValue (cs : List Char) : Nat := cs.foldl (fun v c => v * 10 + (c.toNat - '0'.toNat)) 0

/-- The text `cs` is the number `n`, below 256, or nothing when the number is zero. -/
def IsNumber (cs : List Char) (n : Nat) : Prop := AllDigits cs ∧ decimalValue cs = n ∧ n < 256

/-- The method and, for the stream cipher, the length of the nonce. -/
def IsMethod (cs : List Char) (m : Method) (nonce : Nat) : Prop :=
  match m with
  | .clear => (cs = ['c'] ∨ cs = ['C']) ∧ nonce = 0
  | .stream => ∃ x ds, (x = 's' ∨ x = 'S') ∧ cs = x :: ds ∧ IsNumber ds nonce
  | .block => (cs = ['b'] ∨ cs = ['B']) ∧ nonce = 0

/-- The key of 16 bytes behind a hyphen, unless the method is clear. -/
def IsKey (cs : List Char) (m : Method) (key : Bytes) : Prop :=
  match m with
  | .clear => cs = [] ∧ key = List.replicate 16 0
  | _ => ∃ ds, cs = '-' :: ds ∧ IsHex ds key ∧ key.length = 16

/-- `txt` describes the configuration `c`: the rotation bits (one digit from 0 to 3), Y or N for the coding of the length in
the first byte, the length of the connection IDs, the method, the server ID of 1 to 8 bytes, the key. If the
length is given there is room for the server ID and the nonce, and for a block. -/
def IsText (txt : List Char) (c : Config) : Prop :=
  ∃ r y len m sid key bytes,
    txt = r :: y :: (len ++ (m ++ '-' :: (sid ++ key))) ∧
    (r, c.rotation) ∈ [('0', 0), ('1', 1), ('2', 2), ('3', 3)] ∧
    (y, c.firstByteLength) ∈ [('Y', true), ('y', true), ('N', false), ('n', false)] ∧
    IsNumber len c.cidLength ∧
    IsMethod m c.method c.nonceLength ∧
    IsHex sid bytes ∧ 1 ≤ bytes.length ∧ bytes.length ≤ 8 ∧ c.serverIdLength = bytes.length ∧
    c.serverId64 = bigEndian bytes ∧
    IsKey key c.method c.key ∧
    (c.cidLength ≠ 0 → 1 + c.serverIdLength + c.nonceLength ≤ c.cidLength ∧
      (c.method = .block → 17 ≤ c.cidLength))

/-- What the block cipher of a key does: `enc` permutes the blocks of 16 bytes, and `dec` is its inverse. -/
structure BlockCipher (enc dec : Bytes → Bytes) : Prop where
  length : ∀ b, b.length = 16 → (enc b).length = 16
  inverse : ∀ b, b.length = 16 → dec (enc b) = b

/-- Position of the server ID, in clear, in the connection IDs. -/
def serverIdOffset (c : Config) : Nat := if c.method = .stream then 1 + c.nonceLength else 1

end Picoquic.Spec
