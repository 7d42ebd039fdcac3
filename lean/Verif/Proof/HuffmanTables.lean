import Verif.Model.Huffman
import Verif.Spec.Huffman
/-!
# Proofs about Huffman codes
-/

namespace Picoquic.Huffman
open Picoquic.Spec

/-- The bits that lead to each location of the tables, and their number. -/
def pathTable : List (Nat × Nat) :=
  [(0x0, 0), (0x0, 1), (0x0, 2), (0x0, 3), (0x0, 4), (0x0, 5), (0x1, 5), (0x1, 4), (0x2, 5), (0x3, 5),
   (0x1, 3), (0x2, 4), (0x4, 5), (0x5, 5), (0x3, 4), (0x6, 5), (0x7, 5), (0x1, 2), (0x2, 3), (0x4, 4),
   (0x8, 5), (0x9, 5), (0x5, 4), (0xa, 5), (0x14, 6), (0x15, 6), (0xb, 5), (0x16, 6), (0x17, 6), (0x3, 3),
   (0x6, 4), (0xc, 5), (0x18, 6), (0x19, 6), (0xd, 5), (0x1a, 6), (0x1b, 6), (0x7, 4), (0xe, 5), (0x1c, 6),
   (0x1d, 6), (0xf, 5), (0x1e, 6), (0x1f, 6), (0x1, 1), (0x2, 2), (0x4, 3), (0x8, 4), (0x10, 5), (0x20, 6),
   (0x21, 6), (0x11, 5), (0x22, 6), (0x23, 6), (0x9, 4), (0x12, 5), (0x24, 6), (0x25, 6), (0x13, 5), (0x26, 6),
   (0x27, 6), (0x5, 3), (0xa, 4), (0x14, 5), (0x28, 6), (0x29, 6), (0x15, 5), (0x2a, 6), (0x2b, 6), (0xb, 4),
   (0x16, 5), (0x2c, 6), (0x2d, 6), (0x17, 5), (0x2e, 6), (0x5c, 7), (0x5d, 7), (0x2f, 6), (0x5e, 7), (0x5f, 7),
   (0x3, 2), (0x6, 3), (0xc, 4), (0x18, 5), (0x30, 6), (0x60, 7), (0x61, 7), (0x31, 6), (0x62, 7), (0x63, 7),
   (0x19, 5), (0x32, 6), (0x64, 7), (0x65, 7), (0x33, 6), (0x66, 7), (0x67, 7), (0xd, 4), (0x1a, 5), (0x34, 6),
   (0x68, 7), (0x69, 7), (0x35, 6), (0x6a, 7), (0x6b, 7), (0x1b, 5), (0x36, 6), (0x6c, 7), (0x6d, 7), (0x37, 6),
   (0x6e, 7), (0x6f, 7), (0x7, 3), (0xe, 4), (0x1c, 5), (0x38, 6), (0x70, 7), (0x71, 7), (0x39, 6), (0x72, 7),
   (0x73, 7), (0x1d, 5), (0x3a, 6), (0x74, 7), (0x75, 7), (0x3b, 6), (0x76, 7), (0x77, 7), (0xf, 4), (0x1e, 5),
   (0x3c, 6), (0x78, 7), (0x79, 7), (0x3d, 6), (0x7a, 7), (0x7b, 7), (0x1f, 5), (0x3e, 6), (0x7c, 7), (0xf8, 8),
   (0xf9, 8), (0x7d, 7), (0xfa, 8), (0xfb, 8), (0x3f, 6), (0x7e, 7), (0xfc, 8), (0xfd, 8), (0x7f, 7), (0xfe, 8),
   (0x1fc, 9), (0x3f8, 10), (0x3f9, 10), (0x1fd, 9), (0x3fa, 10), (0x3fb, 10), (0xff, 8), (0x1fe, 9), (0x3fc, 10), (0x3fd, 10),
   (0x7fa, 11), (0x7fb, 11), (0x1ff, 9), (0x3fe, 10), (0x7fc, 11), (0x7fd, 11), (0xffa, 12), (0xffb, 12), (0x3ff, 10), (0x7fe, 11),
   (0xffc, 12), (0x1ff8, 13), (0x1ff9, 13), (0xffd, 12), (0x1ffa, 13), (0x1ffb, 13), (0x7ff, 11), (0xffe, 12), (0x1ffc, 13), (0x1ffd, 13),
   (0xfff, 12), (0x1ffe, 13), (0x3ffc, 14), (0x3ffd, 14), (0x1fff, 13), (0x3ffe, 14), (0x7ffc, 15), (0x7ffd, 15), (0x3fff, 14), (0x7ffe, 15),
   (0x7fff, 15), (0xfffe, 16), (0x1fffc, 17), (0x3fff8, 18), (0x7fff0, 19), (0x7fff1, 19), (0x3fff9, 18), (0x7fff2, 19), (0x7fff3, 19), (0xfffe6, 20),
   (0xfffe7, 20), (0x1fffd, 17), (0x3fffa, 18), (0x7fff4, 19), (0xfffe8, 20), (0xfffe9, 20), (0x7fff5, 19), (0xfffea, 20), (0xfffeb, 20), (0x3fffb, 18),
   (0x7fff6, 19), (0xfffec, 20), (0xfffed, 20), (0x7fff7, 19), (0xfffee, 20), (0x1fffdc, 21), (0x1fffdd, 21), (0xfffef, 20), (0x1fffde, 21), (0x1fffdf, 21),
   (0xffff, 16), (0x1fffe, 17), (0x3fffc, 18), (0x7fff8, 19), (0xffff0, 20), (0x1fffe0, 21), (0x1fffe1, 21), (0xffff1, 20), (0x1fffe2, 21), (0x1fffe3, 21),
   (0x7fff9, 19), (0xffff2, 20), (0x1fffe4, 21), (0x1fffe5, 21), (0xffff3, 20), (0x1fffe6, 21), (0x1fffe7, 21), (0x3fffd, 18), (0x7fffa, 19), (0xffff4, 20),
   (0x1fffe8, 21), (0x1fffe9, 21), (0x3fffd2, 22), (0x3fffd3, 22), (0xffff5, 20), (0x1fffea, 21), (0x3fffd4, 22), (0x3fffd5, 22), (0x1fffeb, 21), (0x3fffd6, 22),
   (0x3fffd7, 22), (0x7fffb, 19), (0xffff6, 20), (0x1fffec, 21), (0x3fffd8, 22), (0x3fffd9, 22), (0x1fffed, 21), (0x3fffda, 22), (0x3fffdb, 22), (0xffff7, 20),
   (0x1fffee, 21), (0x3fffdc, 22), (0x3fffdd, 22), (0x1fffef, 21), (0x3fffde, 22), (0x3fffdf, 22), (0x1ffff, 17), (0x3fffe, 18), (0x7fffc, 19), (0xffff8, 20),
   (0x1ffff0, 21), (0x3fffe0, 22), (0x3fffe1, 22), (0x1ffff1, 21), (0x3fffe2, 22), (0x3fffe3, 22), (0xffff9, 20), (0x1ffff2, 21), (0x3fffe4, 22), (0x3fffe5, 22),
   (0x1ffff3, 21), (0x3fffe6, 22), (0x3fffe7, 22), (0x7fffd, 19), (0xffffa, 20), (0x1ffff4, 21), (0x3fffe8, 22), (0x3fffe9, 22), (0x1ffff5, 21), (0x3fffea, 22),
   (0x3fffeb, 22), (0xffffb, 20), (0x1ffff6, 21), (0x3fffec, 22), (0x7fffd8, 23), (0x7fffd9, 23), (0x3fffed, 22), (0x7fffda, 23), (0x7fffdb, 23), (0x1ffff7, 21),
   (0x3fffee, 22), (0x7fffdc, 23), (0x7fffdd, 23), (0x3fffef, 22), (0x7fffde, 23), (0x7fffdf, 23), (0x3ffff, 18), (0x7fffe, 19), (0xffffc, 20), (0x1ffff8, 21),
   (0x3ffff0, 22), (0x7fffe0, 23), (0x7fffe1, 23), (0x3ffff1, 22), (0x7fffe2, 23), (0x7fffe3, 23), (0x1ffff9, 21), (0x3ffff2, 22), (0x7fffe4, 23), (0x7fffe5, 23),
   (0x3ffff3, 22), (0x7fffe6, 23), (0x7fffe7, 23), (0xffffd, 20), (0x1ffffa, 21), (0x3ffff4, 22), (0x7fffe8, 23), (0x7fffe9, 23), (0x3ffff5, 22), (0x7fffea, 23),
   (0x7fffeb, 23), (0x1ffffb, 21), (0x3ffff6, 22), (0x7fffec, 23), (0x7fffed, 23), (0x3ffff7, 22), (0x7fffee, 23), (0x7fffef, 23), (0x7ffff, 19), (0xffffe, 20),
   (0x1ffffc, 21), (0x3ffff8, 22), (0x7ffff0, 23), (0x7ffff1, 23), (0x3ffff9, 22), (0x7ffff2, 23), (0x7ffff3, 23), (0x1ffffd, 21), (0x3ffffa, 22), (0x7ffff4, 23),
   (0x7ffff5, 23), (0xffffea, 24), (0xffffeb, 24), (0x3ffffb, 22), (0x7ffff6, 23), (0xffffec, 24), (0xffffed, 24), (0x7ffff7, 23), (0xffffee, 24), (0xffffef, 24),
   (0xfffff, 20), (0x1ffffe, 21), (0x3ffffc, 22), (0x7ffff8, 23), (0xfffff0, 24), (0xfffff1, 24), (0x7ffff9, 23), (0xfffff2, 24), (0xfffff3, 24), (0x3ffffd, 22),
   (0x7ffffa, 23), (0xfffff4, 24), (0xfffff5, 24), (0x7ffffb, 23), (0xfffff6, 24), (0x1ffffec, 25), (0x1ffffed, 25), (0xfffff7, 24), (0x1ffffee, 25), (0x1ffffef, 25),
   (0x1fffff, 21), (0x3ffffe, 22), (0x7ffffc, 23), (0xfffff8, 24), (0x1fffff0, 25), (0x3ffffe0, 26), (0x3ffffe1, 26), (0x1fffff1, 25), (0x3ffffe2, 26), (0x3ffffe3, 26),
   (0xfffff9, 24), (0x1fffff2, 25), (0x3ffffe4, 26), (0x3ffffe5, 26), (0x1fffff3, 25), (0x3ffffe6, 26), (0x3ffffe7, 26), (0x7ffffd, 23), (0xfffffa, 24), (0x1fffff4, 25),
   (0x3ffffe8, 26), (0x3ffffe9, 26), (0x1fffff5, 25), (0x3ffffea, 26), (0x3ffffeb, 26), (0xfffffb, 24), (0x1fffff6, 25), (0x3ffffec, 26), (0x3ffffed, 26), (0x1fffff7, 25),
   (0x3ffffee, 26), (0x3ffffef, 26), (0x7ffffde, 27), (0x7ffffdf, 27), (0x3fffff, 22), (0x7ffffe, 23), (0xfffffc, 24), (0x1fffff8, 25), (0x3fffff0, 26), (0x7ffffe0, 27),
   (0x7ffffe1, 27), (0x3fffff1, 26), (0x7ffffe2, 27), (0x7ffffe3, 27), (0x1fffff9, 25), (0x3fffff2, 26), (0x7ffffe4, 27), (0x7ffffe5, 27), (0x3fffff3, 26), (0x7ffffe6, 27),
   (0x7ffffe7, 27), (0xfffffd, 24), (0x1fffffa, 25), (0x3fffff4, 26), (0x7ffffe8, 27), (0x7ffffe9, 27), (0x3fffff5, 26), (0x7ffffea, 27), (0x7ffffeb, 27), (0x1fffffb, 25),
   (0x3fffff6, 26), (0x7ffffec, 27), (0x7ffffed, 27), (0x3fffff7, 26), (0x7ffffee, 27), (0x7ffffef, 27), (0x7fffff, 23), (0xfffffe, 24), (0x1fffffc, 25), (0x3fffff8, 26),
   (0x7fffff0, 27), (0x7fffff1, 27), (0xfffffe2, 28), (0xfffffe3, 28), (0x3fffff9, 26), (0x7fffff2, 27), (0xfffffe4, 28), (0xfffffe5, 28), (0x7fffff3, 27), (0xfffffe6, 28),
   (0xfffffe7, 28), (0x1fffffd, 25), (0x3fffffa, 26), (0x7fffff4, 27), (0xfffffe8, 28), (0xfffffe9, 28), (0x7fffff5, 27), (0xfffffea, 28), (0xfffffeb, 28), (0x3fffffb, 26),
   (0x7fffff6, 27), (0xfffffec, 28), (0xfffffed, 28), (0x7fffff7, 27), (0xfffffee, 28), (0xfffffef, 28), (0xffffff, 24), (0x1fffffe, 25), (0x3fffffc, 26), (0x7fffff8, 27),
   (0xffffff0, 28), (0xffffff1, 28), (0x7fffff9, 27), (0xffffff2, 28), (0xffffff3, 28), (0x3fffffd, 26), (0x7fffffa, 27), (0xffffff4, 28), (0xffffff5, 28), (0x7fffffb, 27),
   (0xffffff6, 28), (0xffffff7, 28), (0x1ffffff, 25), (0x3fffffe, 26), (0x7fffffc, 27), (0xffffff8, 28), (0xffffff9, 28), (0x7fffffd, 27), (0xffffffa, 28), (0xffffffb, 28),
   (0x3ffffff, 26), (0x7fffffe, 27), (0xffffffc, 28), (0xffffffd, 28), (0x7ffffff, 27), (0xffffffe, 28), (0xfffffff, 28), (0x1ffffffe, 29), (0x3ffffffc, 30), (0x3ffffffd, 30),
   (0x1fffffff, 29), (0x3ffffffe, 30)]

def path (i : Nat) : List Bool :=
  match pathTable[i]? with
  | some (x, n) => hfNatBits x n
  | none => []

/-- What is checked of a location. -/
def locOk (i : Nat) : Bool :=
  match isIndex i, huffVal[i]? with
  | some true, some d =>
    decide (path i ≠ List.replicate 30 true) && decide (i + 1 < 512) && decide (path (i + 1) = path i ++ [false]) && decide ((path i).length < 30) &&
      (if i + d < 512 then decide (path (i + d) = path i ++ [true]) else decide (path i ++ [true] = hfEos))
  | some false, some c => decide (c < 256) && decide (path i = hfCode (UInt8.ofNat c))
  | _, _ => false

theorem locs_ok : ∀ i : Fin 512, locOk i.val = true := by decide +kernel

/-- The first code in bits, from a location of the tables. -/
def first : List Bool → Nat → Option (UInt8 × List Bool)
  | [], i =>
    match isIndex i, huffVal[i]? with
    | some false, some c => some (UInt8.ofNat c, [])
    | _, _ => none
  | b :: bs, i =>
    match isIndex i, huffVal[i]? with
    | some false, some c => some (UInt8.ofNat c, b :: bs)
    | some true, some d => first bs (if b then i + d else i + 1)
    | _, _ => none

theorem codes_ok : ∀ c : Fin 256, first (hfCode (UInt8.ofNat c.val)) 0 = some (UInt8.ofNat c.val, []) := by decide +kernel

/-- No code is in the bits that lead to a location of an index. -/
theorem paths_ok : ∀ i : Fin 512, (isIndex i.val == some true && (first (path i.val) 0).isSome) = false := by decide +kernel

theorem ones_ok : ∀ k : Fin 31, first (List.replicate k.val true) 0 = none := by decide +kernel

end Picoquic.Huffman
