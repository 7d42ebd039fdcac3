import Verif.Model.Config

/-!
# Specification of the options

What each option is, as the help of the program says, and what its text means. Independent of how it is read.
-/

namespace Picoquic.Spec

open Picoquic.Config

/-- What an option takes: nothing, a text, a decimal number from `lo` to `hi`, a version in hexadecimal, or 16 bytes in
hexadecimal; `help` is none of them. -/
inductive OptionKind
  | flag
  | text
  | number (lo hi : Nat)
  | version
  | seed
  | help
deriving DecidableEq, Repr

/-- The options. Numbers without a limit of their own are limited by `int`. -/
def kindOf : Opt → OptionKind
  | .doRetry | .disablePortBlocking | .multipath | .longLog | .forceZeroShare | .noDisk | .largeClientHello
  | .preemptiveRepeat | .noGso | .sslkeylog => .flag
  | .serverPort => .number 0 65535
  | .maxConnections => .number 1 (2 ^ 31 - 1)
  | .initialRandom => .number 0 2
  | .spinbit => .number 0 3
  | .lossbit => .number 0 2
  | .mtuMax => .number 1 1536
  | .cnxidLength => .number 0 20
  | .bdpFrame => .number 0 1
  | .addressDiscovery => .number 0 2
  | .destIf | .cipherSuite | .idleTimeout | .socketBufferSize | .cwinMax => .number 0 (2 ^ 31 - 1)
  | .proposedVersion | .versionUpgrade => .version
  | .resetSeed => .seed
  | .help => .help
  | _ => .text

/-- What is stored for a number: a limit of 0 is no limit, and the modes of address discovery are stored plus 1, 0 being
that it is not used. -/
def storedAs (o : Opt) (n : Nat) : Int :=
  if o = .cwinMax ∧ n = 0 then 2 ^ 64 - 1 else if o = .addressDiscovery then n + 1 else n

/-- A decimal number is written with digits. -/
def Digits (t : List Char) : Prop := ∀ c ∈ t, c.isDigit = true

/-- A hexadecimal digit, of either case. -/
def HexLetter (c : Char) : Prop :=
  (48 ≤ c.toNat ∧ c.toNat ≤ 57) ∨ (65 ≤ c.toNat ∧ c.toNat ≤ 70) ∨ (97 ≤ c.toNat ∧ c.toNat ≤ 102)

/-- The bytes in hexadecimal, two digits each. -/
def hexText (b : Bytes) : List Char :=
  b.flatMap (fun x => [Nat.digitChar (x.toNat / 16), Nat.digitChar (x.toNat % 16)])

/-- The two configurations differ at most in what belongs to `o`. -/
def SameBut (o : Opt) (c c' : Conf) : Prop :=
  (∀ x, x ≠ o → c'.num x = c.num x ∧ c'.text x = c.text x ∧ c'.flag x = c.flag x) ∧
  (o ≠ .resetSeed → c'.hasSeed = c.hasSeed ∧ c'.seed = c.seed)

/-- What belongs to `o` is the same in the two configurations. -/
def SameAt (o : Opt) (c c' : Conf) : Prop :=
  c'.num o = c.num o ∧ c'.text o = c.text o ∧ c'.flag o = c.flag o ∧
  (o = .resetSeed → c'.hasSeed = c.hasSeed ∧ c'.seed = c.seed)

/-- What holds if an option is not given: the number that is stored. The length of the connection IDs is -1, for the
default of the context (config.c 839), at most 256 connections, mode 3 of the first packet number, no limit of the
congestion window, 30 seconds of silence, and 0 else. -/
def defaultNumber (o : Opt) : Int :=
  if o = .cnxidLength then -1
  else if o = .maxConnections then 256
  else if o = .initialRandom then 3
  else if o = .cwinMax then 2 ^ 64 - 1
  else if o = .idleTimeout then 30000
  else 0

end Picoquic.Spec
