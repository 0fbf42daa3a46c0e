import Verif.Model.Encoding
import Verif.Model.Ctype
import Verif.Model.Curve64
/-!
Model of src/genkey.c and src/pubkey.c (POSIX build). `PROG_NAME` and the text of `strerror` are parameters; failures of writing to
standard output are not checked by the program and not modelled.
-/
namespace WG

/-- What a command leaves behind. -/
structure Out where
  stdout : List UInt8
  stderr : List UInt8
  code : Nat
deriving DecidableEq

/-- The outcomes of the system calls of `get_random_bytes`. -/
structure RandEnv where
  /-- `getentropy`, where compiled in: the bytes when it returns 0. -/
  entropy : (n : Nat) → Option (Vector UInt8 n)
  /-- `syscall(__NR_getrandom)`, where compiled in: the bytes written (at most `n` count), or an error. -/
  getrandom : Nat → Option (List UInt8)
  /-- Whether `/dev/urandom` could be opened. -/
  openOk : Bool
  /-- The `j`-th `read` with `n` bytes asked for: the bytes delivered (at most `n` of these; none is the end of the file), or an
  error. -/
  read : Nat → Nat → Option (List UInt8)

/-- Bytes written to a buffer at an offset. -/
def writeAt (buf : List UInt8) (i : Nat) (d : List UInt8) : List UInt8 := buf.take i ++ d ++ buf.drop (i + d.length)

/-- genkey.c:56-62, the reading loop, from the `j`-th read on and `i` bytes already there; the buffer when the loop ends, and `i`.
Every iteration that continues reads at least one byte, so `len` iterations are enough. -/
def urandomLoop (env : RandEnv) (len : Nat) : Nat → Nat → Nat → List UInt8 → List UInt8 × Nat
  | 0, _, i, buf => (buf, i)
  | fuel + 1, j, i, buf =>
    if i < len then
      match env.read j (len - i) with
      | none => (buf, i)
      | some d =>
        let d := d.take (len - i)
        if d.length = 0 then (buf, i)
        else urandomLoop env len fuel (j + 1) (i + d.length) (writeAt buf i d)
    else (buf, i)

/-- genkey.c:32-67 `get_random_bytes`: the contents of the buffer when it returns true; `out` is what was in it before. -/
def getRandomBytes (env : RandEnv) (out : List UInt8) (len : Nat) : Option (List UInt8) :=
  if len > 256 then none
  else
    match env.entropy len with
    | some v => some v.toList
    | none =>
      let d := (env.getrandom len).map (·.take len)
      let out := match d with | some d => writeAt out 0 d | none => out
      if d.map (·.length) = some len then some out
      else if !env.openOk then none
      else
        let r := urandomLoop env len len 0 0 out
        if r.2 = len then some r.1 else none

/-- The text of a `Usage` line: genkey.c:83, pubkey.c:21. -/
def usageLine (prog cmd : CStr) : List UInt8 := b!"Usage: " ++ prog ++ b!" " ++ cmd ++ b!"\n"

/-- genkey.c:87-88. -/
def worldWarning : List UInt8 :=
  b!"Warning: writing to world accessible file.\nConsider setting the umask to 077 and trying again.\n"

/-- A list of 32 bytes as a key. -/
def keyOf (l : List UInt8) : Key := Vector.ofFn fun i => l.getD i.val 0

/-- genkey.c:76-103 `genkey_main`. `mode` is `st_mode` of standard output when `fstat` succeeds, `junk` the uninitialised buffer,
`strerr` the text of `perror`. -/
def genkeyMain (env : RandEnv) (mode : Option Nat) (junk : Key) (strerr : List UInt8) (prog : CStr) (argv : List CStr) : Out :=
  if argv.length ≠ 1 then ⟨[], usageLine prog (argv.headD []), 1⟩
  else
    let warn := match mode with
      | some m => if m &&& 0o170000 = 0o100000 && (m &&& 0o7 != 0) then worldWarning else []
      | none => []
    match getRandomBytes env junk.toList 32 with
    | none => ⟨[], warn ++ b!"getrandom: " ++ strerr ++ b!"\n", 1⟩
    | some l =>
      let key := if argv.headD [] = b!"genkey" then C64.clamp (keyOf l) else keyOf l
      ⟨keyToBase64 key ++ b!"\n", warn, 0⟩

/-- pubkey.c:33-41, the loop over the characters after the key: whether only allowed ones follow. -/
def trailingOk : List UInt8 → Bool
  | [] => true
  | c :: r => if c = 0 || charIsSpace (u8ToInt c) then trailingOk r else false

/-- pubkey.c:14-51 `pubkey_main`; `stdin` holds the bytes before the end of the file (or a read error), `generatePublic` is
`curve25519_generate_public` of the build. -/
def pubkeyMain (generatePublic : Key → Key) (sc : Bool) (prog : CStr) (stdin : List UInt8) (argv : List CStr) : Out :=
  if argv.length ≠ 1 then ⟨[], usageLine prog (argv.headD []), 1⟩
  else
    let base64 := stdin.take 44
    if base64.length ≠ 44 then ⟨[], prog ++ b!": Key is not the correct length or format\n", 1⟩
    else if !trailingOk (stdin.drop 44) then ⟨[], prog ++ b!": Trailing characters found after key\n", 1⟩
    else
      match keyFromBase64 sc (cstr base64) with
      | none => ⟨[], prog ++ b!": Key is not the correct length or format\n", 1⟩
      | some key => ⟨keyToBase64 (generatePublic key) ++ b!"\n", [], 0⟩

end WG
