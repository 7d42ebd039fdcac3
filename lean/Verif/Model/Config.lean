import Verif.Model.IntFormat

/-!
# The configuration options

Model of config.c: the values of options given as text, the letters and names of the options, and the use of some of
them when a context is made. Characters are ASCII codes. A configuration has one field for each option: of a number, of
a text, or of a flag; the names of the fields are not modelled, since each option writes only its own. Messages, and the
failure of `malloc`, are not modelled.
-/

namespace Picoquic.Config

/-- `picoquic_option_enum_t`, picoquic_config.h 33-79. -/
inductive Opt
  | cert
  | key
  | serverPort
  | proposedVersion
  | outdir
  | wwwdir
  | maxConnections
  | doRetry
  | initialRandom
  | resetSeed
  | disablePortBlocking
  | solutionDir
  | ccAlgo
  | ccOption
  | spinbit
  | lossbit
  | multipath
  | destIf
  | cipherSuite
  | initCnxid
  | logFile
  | longLog
  | binlogDir
  | qlogDir
  | mtuMax
  | sni
  | alpn
  | rootTrustFile
  | forceZeroShare
  | cnxidLength
  | noDisk
  | idleTimeout
  | largeClientHello
  | ticketFileName
  | tokenFileName
  | socketBufferSize
  | performanceLog
  | preemptiveRepeat
  | versionUpgrade
  | noGso
  | bdpFrame
  | cwinMax
  | sslkeylog
  | addressDiscovery
  | help
deriving DecidableEq, Repr

/-- `picoquic_quic_config_t`, picoquic_config.h 81-138. -/
structure Conf where
  num : Opt → Int
  text : Opt → Option (List Char)
  flag : Opt → Bool
  hasSeed : Bool
  seed : Bytes

/-- A line of the table of options: the option, its letter, its name, and the number of its parameters. -/
structure Line where
  opt : Opt
  letter : Char
  name : List Char
  params : Nat
deriving DecidableEq, Repr

/-- `option_table`, config.c 53-111, with `PICOQUIC_WITHOUT_SSLKEYLOG` not defined. -/
def table : List Line := [
  ⟨.cert, 'c', ['c', 'e', 'r', 't'], 1⟩,
  ⟨.key, 'k', ['k', 'e', 'y'], 1⟩,
  ⟨.serverPort, 'p', ['p', 'o', 'r', 't'], 1⟩,
  ⟨.proposedVersion, 'v', ['p', 'r', 'o', 'p', 'o', 's', 'e', 'd', '_', 'v', 'e', 'r', 's', 'i', 'o', 'n'], 1⟩,
  ⟨.outdir, 'o', ['o', 'u', 't', 'd', 'i', 'r'], 1⟩,
  ⟨.wwwdir, 'w', ['w', 'w', 'w', 'd', 'i', 'r'], 1⟩,
  ⟨.maxConnections, 'x', ['m', 'a', 'x', '_', 'c', 'o', 'n', 'n', 'e', 'c', 't', 'i', 'o', 'n', 's'], 1⟩,
  ⟨.doRetry, 'r', ['d', 'o', '_', 'r', 'e', 't', 'r', 'y'], 0⟩,
  ⟨.initialRandom, 'R', ['i', 'n', 'i', 't', 'i', 'a', 'l', '_', 'r', 'a', 'n', 'd', 'o', 'm'], 1⟩,
  ⟨.resetSeed, 's', ['r', 'e', 's', 'e', 't', '_', 's', 'e', 'e', 'd'], 1⟩,
  ⟨.disablePortBlocking, 'X', ['d', 'i', 's', 'a', 'b', 'l', 'e', '_', 'b', 'l', 'o', 'c', 'k'], 0⟩,
  ⟨.solutionDir, 'S', ['s', 'o', 'l', 'u', 't', 'i', 'o', 'n', '_', 'd', 'i', 'r'], 1⟩,
  ⟨.ccAlgo, 'G', ['c', 'c', '_', 'a', 'l', 'g', 'o'], 1⟩,
  ⟨.ccOption, 'H', ['c', 'c', 'o'], 1⟩,
  ⟨.spinbit, 'P', ['s', 'p', 'i', 'n', 'b', 'i', 't'], 1⟩,
  ⟨.lossbit, 'O', ['l', 'o', 's', 's', 'b', 'i', 't'], 1⟩,
  ⟨.multipath, 'M', ['m', 'u', 'l', 't', 'i', 'p', 'a', 't', 'h'], 0⟩,
  ⟨.destIf, 'e', ['d', 'e', 's', 't', '_', 'i', 'f'], 1⟩,
  ⟨.cipherSuite, 'C', ['c', 'i', 'p', 'h', 'e', 'r', '_', 's', 'u', 'i', 't', 'e'], 1⟩,
  ⟨.initCnxid, 'i', ['c', 'n', 'x', 'i', 'd', '_', 'p', 'a', 'r', 'a', 'm', 's'], 1⟩,
  ⟨.logFile, 'l', ['t', 'e', 'x', 't', '_', 'l', 'o', 'g'], 1⟩,
  ⟨.longLog, 'L', ['l', 'o', 'n', 'g', '_', 'l', 'o', 'g'], 0⟩,
  ⟨.binlogDir, 'b', ['b', 'i', 'n', 'l', 'o', 'g', '_', 'd', 'i', 'r'], 1⟩,
  ⟨.qlogDir, 'q', ['q', 'l', 'o', 'g', '_', 'd', 'i', 'r'], 1⟩,
  ⟨.mtuMax, 'm', ['m', 't', 'u', '_', 'm', 'a', 'x'], 1⟩,
  ⟨.sni, 'n', ['s', 'n', 'i'], 1⟩,
  ⟨.alpn, 'a', ['a', 'l', 'p', 'n'], 1⟩,
  ⟨.rootTrustFile, 't', ['r', 'o', 'o', 't', '_', 't', 'r', 'u', 's', 't', '_', 'f', 'i', 'l', 'e'], 1⟩,
  ⟨.forceZeroShare, 'z', ['f', 'o', 'r', 'c', 'e', '_', 'z', 'e', 'r', 'o', '_', 's', 'h', 'a', 'r', 'e'], 0⟩,
  ⟨.cnxidLength, 'I', ['c', 'n', 'x', 'i', 'd', '_', 'l', 'e', 'n', 'g', 't', 'h'], 1⟩,
  ⟨.idleTimeout, 'd', ['i', 'd', 'l', 'e', '_', 't', 'i', 'm', 'e', 'o', 'u', 't'], 1⟩,
  ⟨.noDisk, 'D', ['n', 'o', '_', 'd', 'i', 's', 'k'], 0⟩,
  ⟨.largeClientHello, 'Q', ['l', 'a', 'r', 'g', 'e', '_', 'c', 'l', 'i', 'e', 'n', 't', '_', 'h', 'e', 'l', 'l', 'o'], 0⟩,
  ⟨.ticketFileName, 'T', ['t', 'i', 'c', 'k', 'e', 't', '_', 'f', 'i', 'l', 'e'], 1⟩,
  ⟨.tokenFileName, 'N', ['t', 'o', 'k', 'e', 'n', '_', 'f', 'i', 'l', 'e'], 1⟩,
  ⟨.socketBufferSize, 'B', ['s', 'o', '_', 'b', 'u', 'f', '_', 's', 'i', 'z', 'e'], 1⟩,
  ⟨.performanceLog, 'F', ['l', 'o', 'g', '_', 'f', 'i', 'l', 'e', '_', 'n', 'a', 'm', 'e'], 1⟩,
  ⟨.preemptiveRepeat, 'V', ['p', 'r', 'e', 'e', 'm', 'p', 't', 'i', 'v', 'e', '_', 'r', 'e', 'p', 'e', 'a', 't'], 0⟩,
  ⟨.versionUpgrade, 'U', ['v', 'e', 'r', 's', 'i', 'o', 'n', '_', 'u', 'p', 'g', 'r', 'a', 'd', 'e'], 1⟩,
  ⟨.noGso, '0', ['n', 'o', '_', 'g', 's', 'o'], 0⟩,
  ⟨.bdpFrame, 'j', ['b', 'd', 'p'], 1⟩,
  ⟨.cwinMax, 'W', ['c', 'w', 'i', 'n', '_', 'm', 'a', 'x'], 1⟩,
  ⟨.sslkeylog, '8', ['s', 's', 'l', 'k', 'e', 'y', 'l', 'o', 'g'], 0⟩,
  ⟨.addressDiscovery, 'J', ['a', 'd', 'd', 'r', '_', 'd', 'i', 's', 'c'], 1⟩,
  ⟨.help, 'h', ['h', 'e', 'l', 'p'], 0⟩]

def INT_MAX : Nat := 2 ^ 31 - 1

/-- `picoquic_config_init`, config.c 913-921. -/
def init : Conf where
  num o :=
    match o with
    | .cnxidLength => -1
    | .maxConnections => 256
    | .initialRandom => 3
    | .cwinMax => 2 ^ 64 - 1
    | .idleTimeout => 30000
    | _ => 0
  text _ := none
  flag _ := false
  hasSeed := false
  seed := List.replicate 16 0

/-- The loop of `config_atoi`, config.c 219-230, from the value `v`: the value and whether all is well, or `none` where
the `int` overflows, which is undefined. -/
def atoiFrom (v : Int) : List Char → Option (Int × Bool)
  | [] => some (v, true)
  | x :: xs =>
    let c := (x.toNat : Int) - 48
    if c < 0 ∨ c > 9 then some (-1, false)
    else if v * 10 + c > INT_MAX then none
    else atoiFrom (v * 10 + c) xs

/-- `config_atoi`, config.c 211-233, of the parameter if there is one. -/
def atoi : Option (List Char) → Option (Int × Bool)
  | none => some (0, false)
  | some t => atoiFrom 0 t

/-- `config_optval_param_string` with a buffer of 256, config.c 190-209. -/
def optval : Option (List Char) → List Char
  | none => []
  | some t => t.take 255

/-- The loop of `config_parse_target_version`, config.c 121-143, on 32 bits. -/
def versionFrom (v : Nat) : List Char → Nat
  | [] => v
  | x :: xs =>
    match parseHexaDigit x with
    | some c => versionFrom ((v * 16 + c) % 2 ^ 32) xs
    | none => 0

/-- `config_parse_target_version`, config.c 115-146. -/
def parseVersion (t : List Char) : Nat := versionFrom 0 t

def Conf.setNum (c : Conf) (o : Opt) (v : Int) : Conf := { c with num := fun x => if x = o then v else c.num x }
def Conf.setText (c : Conf) (o : Opt) (v : Option (List Char)) : Conf :=
  { c with text := fun x => if x = o then v else c.text x }
def Conf.setFlag (c : Conf) (o : Opt) : Conf := { c with flag := fun x => if x = o then true else c.flag x }

/-- `config_set_string_param`, config.c 148-178: the old value is dropped first. -/
def setString (c : Conf) (o : Opt) : Option (List Char) → Conf × Bool
  | none => (c.setText o none, false)
  | some t => if t.length > 0 then (c.setText o (some t), true) else (c.setText o none, false)

/-- A number that is stored, then checked to be from `lo` to `hi`, as in config.c 348-354. -/
def storeNum (c : Conf) (o : Opt) (p : Option (List Char)) (lo hi : Int) : Option (Conf × Bool) :=
  match atoi p with
  | none => none
  | some (v, ok) => some (c.setNum o v, ok && decide (lo ≤ v ∧ v ≤ hi))

/-- A number that is checked to be from `lo` to `hi`, then stored as `f` of it, as in config.c 262-272. -/
def checkNum (c : Conf) (o : Opt) (p : Option (List Char)) (lo hi : Int) (f : Int → Int) : Option (Conf × Bool) :=
  match atoi p with
  | none => none
  | some (v, ok) => if ok = false ∨ v < lo ∨ v > hi then some (c, false) else some (c.setNum o (f v), true)

/-- A version, as in config.c 253-258. -/
def setVersion (c : Conf) (o : Opt) (p : Option (List Char)) : Option (Conf × Bool) :=
  let v := parseVersion (optval p)
  some (c.setNum o v, decide (v > 0))

/-- The bytes that `picoquic_parse_hexa` writes, util.c 292-303, up to what is no digit. -/
def hexaWritten : List Char → Bytes
  | x :: y :: rest =>
    match parseHexaDigit x, parseHexaDigit y with
    | some a, some b => UInt8.ofNat (a * 16 + b) :: hexaWritten rest
    | _, _ => []
  | _ => []

/-- The case of `picoquic_option_RESET_SEED`, config.c 273-280. Without a parameter `params[0]` was not set: undefined
(`none`). -/
def setSeed (c : Conf) : Option (List Char) → Option (Conf × Bool)
  | none => none
  | some t =>
    let w := if t.length > 0 ∧ t.length % 2 = 0 ∧ 2 * 16 ≥ t.length then hexaWritten t else []
    some ({ c with hasSeed := true, seed := w ++ c.seed.drop w.length }, decide ((parseHexa t 16).length = 16))

/-- `config_set_option`, config.c 235-451: the configuration, and whether 0 is returned. -/
def setOption (c : Conf) (o : Opt) (p : Option (List Char)) : Option (Conf × Bool) :=
  match o with
  | .cert => some (setString c .cert p)
  | .key => some (setString c .key p)
  | .serverPort => storeNum c .serverPort p (-1) INT_MAX
  | .proposedVersion => setVersion c .proposedVersion p
  | .outdir => some (setString c .outdir p)
  | .wwwdir => some (setString c .wwwdir p)
  | .maxConnections => checkNum c .maxConnections p 1 INT_MAX id
  | .doRetry => some (c.setFlag .doRetry, true)
  | .initialRandom => checkNum c .initialRandom p 0 2 id
  | .resetSeed => setSeed c p
  | .disablePortBlocking => some (c.setFlag .disablePortBlocking, true)
  | .sslkeylog => some (c.setFlag .sslkeylog, true)
  | .solutionDir => some (setString c .solutionDir p)
  | .ccAlgo => some (setString c .ccAlgo p)
  | .ccOption => some (setString c .ccOption p)
  | .spinbit => checkNum c .spinbit p 0 3 id
  | .lossbit => checkNum c .lossbit p 0 2 id
  | .multipath => some (c.setFlag .multipath, true)
  | .destIf => storeNum c .destIf p (-1) INT_MAX
  | .cipherSuite => storeNum c .cipherSuite p (-1) INT_MAX
  | .initCnxid => some (setString c .initCnxid p)
  | .logFile => some (setString c .logFile p)
  | .longLog => some (c.setFlag .longLog, true)
  | .binlogDir => some (setString c .binlogDir p)
  | .qlogDir => some (setString c .qlogDir p)
  | .mtuMax => storeNum c .mtuMax p 1 1536
  | .sni => some (setString c .sni p)
  | .alpn => some (setString c .alpn p)
  | .rootTrustFile => some (setString c .rootTrustFile p)
  | .forceZeroShare => some (c.setFlag .forceZeroShare, true)
  | .cnxidLength => storeNum c .cnxidLength p 0 20
  | .idleTimeout => storeNum c .idleTimeout p 0 INT_MAX
  | .noDisk => some (c.setFlag .noDisk, true)
  | .largeClientHello => some (c.setFlag .largeClientHello, true)
  | .ticketFileName => some (setString c .ticketFileName p)
  | .tokenFileName => some (setString c .tokenFileName p)
  | .socketBufferSize => storeNum c .socketBufferSize p 0 INT_MAX
  | .performanceLog => some (setString c .performanceLog p)
  | .preemptiveRepeat => some (c.setFlag .preemptiveRepeat, true)
  | .versionUpgrade => setVersion c .versionUpgrade p
  | .noGso => some (c.setFlag .noGso, true)
  | .bdpFrame => checkNum c .bdpFrame p 0 1 id
  | .cwinMax => checkNum c .cwinMax p 0 INT_MAX (fun v => if v = 0 then 2 ^ 64 - 1 else v)
  | .addressDiscovery => checkNum c .addressDiscovery p 0 2 (fun v => v + 1)
  | .help => some (c, false)

/-- The options of a program, one after the other: `none` where one is undefined or refused. -/
def setAll (c : Conf) : List (Opt × Option (List Char)) → Option Conf
  | [] => some c
  | (o, p) :: l =>
    match setOption c o p with
    | some (c', true) => setAll c' l
    | _ => none

/-- `picoquic_config_get_option_char_index`, config.c 537-548. -/
def letterIndex (x : Char) : Option Nat := table.findIdx? (fun l => l.letter == x)

/-- `picoquic_config_get_option_name_index`, config.c 550-561: `strncmp` with the length of what is given. -/
def nameIndex (s : List Char) : Option Nat := table.findIdx? (fun l => s == l.name.take s.length)

/-- `picoquic_config_get_command_line_option_index`, config.c 563-578. -/
def argIndex : List Char → Option Nat
  | ['-', x] => letterIndex x
  | '-' :: '-' :: x :: s => nameIndex (x :: s)
  | _ => none

/-- `picoquic_get_command_line_option_value`, config.c 580-616: `arg` is the argument that follows. No option has more
than one parameter. -/
def lineValue (c : Conf) (i : Nat) (arg : Option (List Char)) : Option (Conf × Bool) :=
  match table[i]? with
  | none => none
  | some l =>
    if l.params > 0 then
      match arg with
      | none => some (c, false)
      | some t => setOption c l.opt (some t)
    else setOption c l.opt none

/-- `picoquic_config_command_line`, config.c 618-635. -/
def commandLine (c : Conf) (x : Char) (arg : Option (List Char)) : Option (Conf × Bool) :=
  match letterIndex x with
  | none => some (c, false)
  | some i => lineValue c i arg

/-- `picoquic_config_command_line_ex`, config.c 637-652: for an unknown option `ret` stays 0. -/
def commandLineEx (c : Conf) (s : List Char) (arg : Option (List Char)) : Option (Conf × Bool) :=
  match argIndex s with
  | none => some (c, true)
  | some i => lineValue c i arg

/-- `picoquic_config_set_option`, config.c 510-535. -/
def apiSetOption (c : Conf) (o : Opt) (v : Option (List Char)) : Option (Conf × Bool) :=
  if table.any (fun l => l.opt == o) then setOption c o v else some (c, false)

/-- The loop of `picoquic_config_option_letters`, config.c 458-471, with room for `max` characters, of which `out` were
written, in reverse order. -/
def lettersLoop (max : Nat) : List Line → List Char → List Char × Bool
  | [], out => (out.reverse, true)
  | l :: ls, out =>
    if out.length + 1 < max then
      if l.params > 0 then
        if out.length + 2 < max then lettersLoop max ls (':' :: l.letter :: out)
        else (out.reverse, false)
      else lettersLoop max ls (l.letter :: out)
    else (out.reverse, true)

/-- `picoquic_config_option_letters`, config.c 453-477. -/
def optionLetters (max : Nat) : List Char × Bool := lettersLoop max table []

/-- What `picoquic_create_and_configure` does with the number of a cipher suite, config.c 862-876, with
`picoquic_set_cipher_suite_in_ctx`, tls_api.c 308-365, of which the library has those with the codes `suites`. The
context of TLS is left with these suites; the context is returned whatever happens. -/
def cipherSuites (suites : List Nat) (id : Int) : List Nat :=
  if id = 0 then suites
  else
    let code : Int := if id = 20 then 0x1303 else if id = 128 then 0x1301 else if id = 256 then 0x1302 else id
    suites.filter (fun s => decide ((s : Int) = code))

/-- `picoquic_get_congestion_algorithm`, quicctx.c 5004-5021. -/
def findAlgorithm (names : List (List Char)) (s : List Char) : Option Nat :=
  match names.findIdx? (fun n => s == n) with
  | some i => some i
  | none =>
    if s = ['r', 'e', 'n', 'o'] then names.findIdx? (fun n => ['n', 'e', 'w', 'r', 'e', 'n', 'o'] == n) else none

/-- The packet size limit that `picoquic_create_and_configure` announces, config.c 829-831 and quicctx.c 4449-4453; by
default `PICOQUIC_PRACTICAL_MAX_MTU`, quicctx.c 1284. -/
def announcedMtu (c : Conf) : Nat := if c.num .mtuMax > 0 then (c.num .mtuMax).toNat else 1440

end Picoquic.Config
