import Verif.Model.IpcList
import Verif.Model.Setconf
/-! Model of src/wincompat/libc.c: `getdelim`, `getline` and `strsep` for Windows. -/
namespace WG.Win

/-- A stream: the bytes that are still to come, and does reading fail after them (else the end of the file is reached)? -/
structure Stream where
  bytes : List UInt8
  err : Bool

/-- The buffer of `getline`: `*buf`, `*bufsiz`, and the number of allocations so far. -/
structure LineBuf where
  buf : Option (List UInt8) := none
  siz : Nat := 0
  calls : Nat := 0

/-- libc.c:34-61: the loop of `getdelim`; `ptr` is an offset. `size_t` has 64 bits. -/
def getdelimLoop (heap : Heap) (delim : UInt8) (err : Bool) : List UInt8 → LineBuf → Nat → Res (Int × LineBuf × Stream)
  | [], b, ptr =>
    if err then .ok (-1, b, ⟨[], err⟩)
    else if ptr ≠ 0 then (storeBytes b.buf ptr [0]).bind fun m => .ok (ptr, { b with buf := some m }, ⟨[], err⟩)
    else .ok (-1, b, ⟨[], err⟩)
  | c :: rest, b, ptr =>
    (storeBytes b.buf ptr [c]).bind fun m =>
    if c = delim then (storeBytes (some m) (ptr + 1) [0]).bind fun m => .ok ((ptr + 1 : Nat), { b with buf := some m }, ⟨rest, err⟩)
    else if b.siz ≤ ptr + 1 + 2 then
      match heap.fail b.calls with
      | some _ => .ok (-1, { b with buf := some m, calls := b.calls + 1 }, ⟨rest, err⟩)
      | none =>
        getdelimLoop heap delim err rest
          { buf := some (reallocBytes heap b.calls (some m) (b.siz * 2 % 2 ^ 64)), siz := b.siz * 2 % 2 ^ 64, calls := b.calls + 1 } (ptr + 1)
    else getdelimLoop heap delim err rest { b with buf := some m } (ptr + 1)

/-- libc.c:24-62 `getdelim`: what it returns, the buffer, and the stream afterwards. BUFSIZ is 512. -/
def getdelim (heap : Heap) (delim : UInt8) (b : LineBuf) (s : Stream) : Res (Int × LineBuf × Stream) :=
  if b.buf = none ∨ b.siz = 0 then
    match heap.fail b.calls with
    | some _ => .ok (-1, { buf := none, siz := 512, calls := b.calls + 1 }, s)
    | none => getdelimLoop heap delim s.err s.bytes { buf := some (reallocBytes heap b.calls none 512), siz := 512, calls := b.calls + 1 } 0
  else getdelimLoop heap delim s.err s.bytes b 0

/-- libc.c:64-67 `getline`. -/
def getline (heap : Heap) (b : LineBuf) (s : Stream) : Res (Int × LineBuf × Stream) := getdelim heap 10 b s

/-- The loop of the callers (setconf.c:124; ipc-uapi.h:98, 166, where 0 ends the loop as well, but is never returned): the buffers they see, from the first byte to the one before the NUL that
`getline` stored. -/
def readAll (heap : Heap) : Nat → LineBuf → Stream → Res (List (List UInt8))
  | 0, _, _ => .running
  | fuel + 1, b, s =>
    (getline heap b s).bind fun r =>
    if r.1 < 0 then .ok []
    else (readAll heap fuel r.2.1 r.2.2).bind fun ls => .ok ((r.2.1.buf.getD []).take r.1.toNat :: ls)

/-- libc.c:11-22 `strsep`, on memory; pointers are offsets (`none`: NULL): the pointer returned, the memory, and `*str`. `strcspn` needs a NUL in the memory. -/
def strsepMem (mem : List UInt8) (str : Option Nat) (sep : List UInt8) : Res (Option Nat × List UInt8 × Option Nat) :=
  match str with
  | none => .ok (none, mem, none)
  | some s =>
    if (0 : UInt8) ∉ mem.drop s then .ub
    else
      let end_ := s + ((mem.drop s).takeWhile fun c => c ≠ 0 ∧ c ∉ sep).length
      if mem[end_]? = some 0 then .ok (some s, mem, none)
      else .ok (some s, mem.set end_ 0, some (end_ + 1))

/-- The loop of the callers (config.c:355): the strings returned, as they are when they are returned. -/
def strsepLoop (sep : List UInt8) : Nat → List UInt8 → Option Nat → Res (List CStr)
  | 0, _, _ => .running
  | fuel + 1, mem, str =>
    (strsepMem mem str sep).bind fun r =>
    match r.1 with
    | none => .ok []
    | some s => (strsepLoop sep fuel r.2.1 r.2.2).bind fun l => .ok (cstr (r.2.1.drop s) :: l)

end WG.Win
