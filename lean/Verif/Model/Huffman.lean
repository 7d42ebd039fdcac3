/-!
# Decoding of Huffman codes of strings

Model of `hzero_qpack_huffman_decode` of picohttp/h3zero.c and of its two tables.
-/

namespace Picoquic.Huffman

/-- `h3zero_qpack_huffman_bit`, h3zero.c 1140-1205. -/
def huffBit : List Nat :=
  [249, 50, 115, 39, 38, 79, 147, 39, 38, 100, 249, 50, 114, 100, 242, 100,
   228, 228, 206, 77, 52, 228, 204, 203, 202, 114, 102, 79, 147, 39, 76, 156,
   153, 62, 76, 156, 156, 153, 62, 76, 156, 153, 60, 154, 100, 242, 102, 79,
   147, 39, 38, 83, 228, 201, 201, 147, 211, 39, 38, 79, 38, 78, 76, 178]

/-- `h3zero_qpack_huffman_val`, h3zero.c 1207-1720. -/
def huffVal : List Nat :=
  [44, 16, 8, 4, 2, 48, 49, 2, 50, 97, 4, 2, 99, 101, 2, 105,
   111, 12, 4, 2, 115, 116, 4, 2, 32, 37, 2, 45, 46, 8, 4, 2,
   47, 51, 2, 52, 53, 4, 2, 54, 55, 2, 56, 57, 36, 16, 8, 4,
   2, 61, 65, 2, 95, 98, 4, 2, 100, 102, 2, 103, 104, 8, 4, 2,
   108, 109, 2, 110, 112, 4, 2, 114, 117, 4, 2, 58, 66, 2, 67, 68,
   32, 16, 8, 4, 2, 69, 70, 2, 71, 72, 4, 2, 73, 74, 2, 75,
   76, 8, 4, 2, 77, 78, 2, 79, 80, 4, 2, 81, 82, 2, 83, 84,
   16, 8, 4, 2, 85, 86, 2, 87, 89, 4, 2, 106, 107, 2, 113, 118,
   8, 4, 2, 119, 120, 2, 121, 122, 8, 4, 2, 38, 42, 2, 44, 59,
   4, 2, 88, 90, 8, 4, 2, 33, 34, 2, 40, 41, 6, 2, 63, 2,
   39, 43, 6, 2, 124, 2, 35, 62, 8, 4, 2, 0, 36, 2, 64, 91,
   4, 2, 93, 126, 4, 2, 94, 125, 4, 2, 60, 96, 2, 123, 30, 10,
   4, 2, 92, 195, 2, 208, 2, 128, 130, 8, 4, 2, 131, 162, 2, 184,
   194, 4, 2, 224, 226, 4, 2, 153, 161, 2, 167, 172, 46, 16, 8, 4,
   2, 176, 177, 2, 179, 209, 4, 2, 216, 217, 2, 227, 229, 14, 6, 2,
   230, 2, 129, 132, 4, 2, 133, 134, 2, 136, 146, 8, 4, 2, 154, 156,
   2, 160, 163, 4, 2, 164, 169, 2, 170, 173, 40, 16, 8, 4, 2, 178,
   181, 2, 185, 186, 4, 2, 187, 189, 2, 190, 196, 8, 4, 2, 198, 228,
   2, 232, 233, 8, 4, 2, 1, 135, 2, 137, 138, 4, 2, 139, 140, 2,
   141, 143, 32, 16, 8, 4, 2, 147, 149, 2, 150, 151, 4, 2, 152, 155,
   2, 157, 158, 8, 4, 2, 165, 166, 2, 168, 174, 4, 2, 175, 180, 2,
   182, 183, 22, 8, 4, 2, 188, 191, 2, 197, 231, 6, 2, 239, 2, 9,
   142, 4, 2, 144, 145, 2, 148, 159, 20, 8, 4, 2, 171, 206, 2, 215,
   225, 4, 2, 236, 237, 4, 2, 199, 207, 2, 234, 235, 34, 16, 8, 4,
   2, 192, 193, 2, 200, 201, 4, 2, 202, 205, 2, 210, 213, 8, 4, 2,
   218, 219, 2, 238, 240, 4, 2, 242, 243, 2, 255, 2, 203, 204, 32, 16,
   8, 4, 2, 211, 212, 2, 214, 221, 4, 2, 222, 223, 2, 241, 244, 8,
   4, 2, 245, 246, 2, 247, 248, 4, 2, 250, 251, 2, 252, 253, 30, 14,
   6, 2, 254, 2, 2, 3, 4, 2, 4, 5, 2, 6, 7, 8, 4, 2,
   8, 11, 2, 12, 14, 4, 2, 15, 16, 2, 17, 18, 16, 8, 4, 2,
   19, 20, 2, 21, 23, 4, 2, 24, 25, 2, 26, 27, 8, 4, 2, 28,
   29, 2, 30, 31, 4, 2, 127, 220, 2, 249, 4, 2, 10, 13, 2, 22]

/-- The variables of the loop, h3zero.c 1724-1729: the 64 bits of the registry, the number of bits in it, the bytes that were not
read, the index in the tables, whether all bits of the code that is read are set, and the bytes decoded. -/
structure HS where
  valIn : Nat
  bitsIn : Nat
  inp : List UInt8
  index : Nat
  ones : Bool
  out : List UInt8
deriving DecidableEq, Repr

/-- The loop that refills the registry, h3zero.c 1737-1743. -/
def refill (v n : Nat) : List UInt8 → Nat × Nat × List UInt8
  | [] => (v, n, [])
  | b :: bs => if n < 57 then refill (v ||| ((b.toNat <<< (64 - n - 8)) % 2 ^ 64)) (n + 8) bs else (v, n, b :: bs)

/-- Whether a location is the one of an index, h3zero.c 1734-1735 and 1745: `none` for a read behind the end of the table. -/
def isIndex (index : Nat) : Option Bool :=
  match huffBit[index >>> 3]? with
  | some x => some (decide ((x >>> (7 - (index &&& 7))) &&& 1 = 1))
  | none => none

/-- What an iteration of the loop does. -/
inductive HStep
  | next (s : HS)
  | stop (s : HS)
  | oob
deriving DecidableEq, Repr

/-- One iteration of the loop, h3zero.c 1731-1777. `max` is the room for decoded bytes. -/
def step (max : Nat) (s : HS) : HStep :=
  let r := refill s.valIn s.bitsIn s.inp
  let s := { s with valIn := r.1, bitsIn := r.2.1, inp := r.2.2 }
  match isIndex s.index with
  | none => .oob
  | some true =>
    if s.bitsIn ≤ 0 then .stop s
    else
      match huffVal[s.index]? with
      | none => .oob
      | some d =>
        let bit := (s.valIn >>> 63) &&& 1
        let s := { s with valIn := (s.valIn <<< 1) % 2 ^ 64, bitsIn := s.bitsIn - 1 }
        let s := if bit = 1 then { s with index := s.index + d } else { s with index := s.index + 1, ones := false }
        if s.index ≥ 512 then .stop s else .next s
  | some false =>
    if s.out.length < max then
      match huffVal[s.index]? with
      | none => .oob
      | some c => .next { s with out := s.out ++ [UInt8.ofNat c], index := 0, ones := true }
    else .stop { s with ones := true }

/-- The loop: `none` if it does not end within the number of iterations given, or if a table is read behind its end. -/
def loop (max : Nat) : Nat → HS → Option HS
  | 0, _ => none
  | n + 1, s =>
    match step max s with
    | .next s => loop max n s
    | .stop s => some s
    | .oob => none

/-- `hzero_qpack_huffman_decode`, h3zero.c 1722-1787: whether it succeeds, and the bytes decoded. `none` if it would not end or would read behind the end of a table. -/
def decode (max : Nat) (bytes : List UInt8) : Option (Bool × List UInt8) :=
  match loop max (16 * bytes.length + 2) ⟨0, 0, bytes, 0, true, []⟩ with
  | some s => some (s.ones, s.out)
  | none => none

end Picoquic.Huffman
