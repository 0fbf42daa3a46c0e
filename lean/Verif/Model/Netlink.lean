import Verif.Model.Libc
import Verif.Model.Types
/-!
Model of src/netlink.h (the part of libmnl that builds and reads messages). Host byte order is little endian.

Building: a message is the bytes after its 20 header bytes (`struct nlmsghdr` and `struct genlmsghdr`), so `nlmsg_len` is
`20 + m.length`. `nlmsg_len` is always a multiple of four, so the payload tail is the end of the message.
Lengths are far below 65536 (every payload has at most 32 bytes, the buffer at most 8192), so 16-bit lengths do not wrap
when single attributes are put; nest lengths are reduced to 16 bits as in C.

Reading: `mem` is the whole receive buffer; a read outside it is undefined behaviour (`Res.ub`).
-/
namespace WG

/-- A `uint16_t` in memory. -/
def u16b (n : Nat) : List UInt8 := [UInt8.ofNat n, UInt8.ofNat (n / 256)]
/-- A `uint32_t` in memory. -/
def u32b (n : Nat) : List UInt8 := [UInt8.ofNat n, UInt8.ofNat (n / 256), UInt8.ofNat (n / 65536), UInt8.ofNat (n / 16777216)]

/-- netlink.h:24 `MNL_ALIGN`. -/
def align4 (n : Nat) : Nat := (n + 3) / 4 * 4

/-- What the builder depends on: the buffer size, the bytes that happen to be in a nest header before its length is
written, the family id and version of the socket. -/
structure NlCtx where
  size : Nat
  junk : UInt8 × UInt8
  id : UInt16
  version : UInt8

/-- The bytes of `struct nlmsghdr` and `struct genlmsghdr` (netlink.h:87-104, 609-627 `__mnlg_msg_prepare`). -/
def nlHeader (c : NlCtx) (bodyLen : Nat) (flags : Nat) (seq : UInt32) (cmd : UInt8) : List UInt8 :=
  u32b (20 + bodyLen) ++ u16b c.id.toNat ++ u16b flags ++ u32b seq.toNat ++ [0, 0, 0, 0] ++ [cmd, c.version, 0, 0]

/-- netlink.h:305-320 `mnl_attr_put`. -/
def putAttr (m : List UInt8) (type : Nat) (data : List UInt8) : List UInt8 :=
  m ++ u16b (4 + data.length) ++ u16b type ++ data ++ List.replicate (align4 data.length - data.length) 0

/-- netlink.h:336-343 `mnl_attr_nest_start` (NLA_F_NESTED is 0x8000); the returned pointer is the old end. -/
def nestStart (c : NlCtx) (m : List UInt8) (type : Nat) : List UInt8 := m ++ [c.junk.1, c.junk.2] ++ u16b (0x8000 + type)

/-- netlink.h:345-352 `mnl_attr_put_check` (and its u8/u16/u32 forms, 354-370): the message and whether the attribute fitted. -/
def putCheck (c : NlCtx) (m : List UInt8) (type : Nat) (data : List UInt8) : List UInt8 × Bool :=
  if 20 + m.length + 4 + align4 data.length > c.size then (m, false) else (putAttr m type data, true)

/-- netlink.h:372-378 `mnl_attr_nest_start_check`. -/
def nestFits (c : NlCtx) (m : List UInt8) : Bool := ¬ 20 + m.length + 4 > c.size

/-- netlink.h:380-383 `mnl_attr_nest_end`. -/
def nestEnd (m : List UInt8) (start : Nat) : List UInt8 := m.take start ++ u16b (m.length - start) ++ m.drop (start + 2)

/-- netlink.h:385-388 `mnl_attr_nest_cancel`. -/
def nestCancel (m : List UInt8) (start : Nat) : List UInt8 := m.take start

/-- `if (!put_check(..)) goto toobig; ...`. -/
def andThen (r : List UInt8 × Bool) (f : List UInt8 → List UInt8 × Bool) : List UInt8 × Bool := if r.2 then f r.1 else r

/-! ### Reading -/

/-- `n` bytes at offset `i`. -/
def rdBytes (mem : List UInt8) (i n : Nat) : Res (List UInt8) := if i + n ≤ mem.length then .ok ((mem.drop i).take n) else .ub

/-- The number stored in host byte order. -/
def leNat : List UInt8 → Nat
  | [] => 0
  | b :: t => b.toNat + 256 * leNat t

/-- A number of `n` bytes at offset `i`. -/
def rdNum (mem : List UInt8) (i n : Nat) : Res Nat := (rdBytes mem i n).bind fun bs => .ok (leNat bs)

/-- Conversion to `int`. -/
def toInt32 (x : Int) : Int := (x + 2 ^ 31) % 2 ^ 32 - 2 ^ 31

/-- netlink.h:144-147 `mnl_attr_get_type` (NLA_TYPE_MASK is 0x3fff). -/
def attrType (mem : List UInt8) (a : Nat) : Res Nat := (rdNum mem (a + 2) 2).bind fun t => .ok (t % 0x4000)

/-- netlink.h:149-152 `mnl_attr_get_payload_len`, a `uint16_t`. -/
def attrPayloadLen (mem : List UInt8) (a : Nat) : Res Nat := (rdNum mem a 2).bind fun n => .ok ((n + 65536 - 4) % 65536)

/-- netlink.h:159-164 `mnl_attr_ok`; `len` is already an `int`. -/
def attrOk (mem : List UInt8) (a : Nat) (len : Int) : Res Bool :=
  if len < 4 then .ok false else (rdNum mem a 2).bind fun n => .ok (4 ≤ n ∧ (n : Int) ≤ len)

/-- netlink.h:254-276, the loops of `mnl_attr_parse` and `mnl_attr_parse_nested` over the attributes from offset `a` to the
offset `tail`, with callback `cb` (`ret`: its last result; `fuel`: steps left). -/
def walk {σ : Type} (mem : List UInt8) (tail : Nat) (cb : Nat → σ → Res (Int × σ)) : Nat → Nat → Int → σ → Res (Int × σ)
  | 0, _, _, _ => .running
  | fuel + 1, a, ret, st =>
    (attrOk mem a (toInt32 (tail - a))).bind fun ok =>
    if !ok then .ok (ret, st)
    else (cb a st).bind fun (r, st) =>
      if r ≤ 0 then .ok (r, st)
      else (rdNum mem a 2).bind fun n => walk mem tail cb fuel (a + align4 n) r st

/-- netlink.h:266-276 `mnl_attr_parse_nested`. -/
def parseNested {σ : Type} (mem : List UInt8) (a : Nat) (cb : Nat → σ → Res (Int × σ)) (st : σ) : Res (Int × σ) :=
  (attrPayloadLen mem a).bind fun n => walk mem (a + 4 + n) cb (mem.length + 1) (a + 4) 1 st

/-- netlink.h:254-264 `mnl_attr_parse` for the message at offset `h`: attributes after the header and `offset` more bytes, up to
the end of the message rounded up to a multiple of four. -/
def parseMsg {σ : Type} (mem : List UInt8) (h offset : Nat) (cb : Nat → σ → Res (Int × σ)) (st : σ) : Res (Int × σ) :=
  (rdNum mem h 4).bind fun n => walk mem (h + align4 n) cb (mem.length + 1) (h + 16 + align4 offset) 1 st

/-- netlink.h:180-251 `mnl_attr_validate` for the fixed-size types U8, U16, U32, U64 (`exp` bytes): 0 if the payload
has that size. The errno it sets otherwise is ERANGE. -/
def validFixed (mem : List UInt8) (a exp : Nat) : Res Bool := (attrPayloadLen mem a).bind fun n => .ok (n = exp)

/-- netlink.h:180-251 `mnl_attr_validate` for MNL_TYPE_STRING: 0 if the payload is not empty. -/
def validString (mem : List UInt8) (a : Nat) : Res Bool := (attrPayloadLen mem a).bind fun n => .ok (n ≠ 0)

/-- What one `recvmsg` of the socket gave: an error, or a message of `data.length` bytes in a buffer whose remaining bytes are
`stale` (netlink.h:558-587 `mnl_socket_recvfrom`; a truncated message is the error ENOSPC). -/
inductive Recv where
  | err (errno : Nat)
  | msg (data stale : List UInt8)

/-- `(cond) ? .. : true` of netlink.h:134-142. -/
def idOk (x want : Nat) : Bool := x = 0 ∨ want = 0 ∨ x = want

/-- netlink.h:640-687: the control callbacks of `mnlg_cb_array`; result and errno (`-error` for the smallest `int`, which overflows, is taken as 2^31). -/
def ctlCb (mem : List UInt8) (h len type flags : Nat) (errno : Nat) : Res (Int × Nat) :=
  if type = 2 then -- NLMSG_ERROR
    if len < 16 + 20 then .ok (-1, 74) -- EBADMSG; struct nlmsgerr has 20 bytes
    else (rdNum mem (h + 16) 4).bind fun e =>
      let e := toInt32 e
      .ok (if e = 0 then 0 else -1, e.natAbs)
  else if type = 3 then -- NLMSG_DONE
    if flags % 4 ≥ 2 ∧ len = 16 + 4 then -- NLM_F_MULTI is 2
      (rdNum mem (h + 16) 4).bind fun e =>
        let e := toInt32 e
        .ok (if e = 0 then 0 else -1, e.natAbs)
    else .ok (0, errno)
  else .ok (1, errno)

/-- The type of a table of control callbacks: memory, message, its length, type and flags, errno; result and errno. -/
abbrev CtlCb := List UInt8 → Nat → Nat → Nat → Nat → Nat → Res (Int × Nat)

/-- netlink.h:424-471 `__mnl_cb_run` with the control callbacks `ctl` (for types 1 to 4) over the `len` bytes from offset `h`.
`cb`: the data callback, if any; state: errno and the callback's data. -/
def cbRunWith {σ : Type} (ctl : CtlCb) (mem : List UInt8) (seq portid : Nat) (cb : Option (Nat → Nat × σ → Res (Int × Nat × σ))) :
    Nat → Nat → Int → Int → Nat × σ → Res (Int × Nat × σ)
  | 0, _, _, _, _ => .running
  | fuel + 1, h, len, ret, st =>
    if len < 16 then .ok (ret, st)
    else (rdNum mem h 4).bind fun n =>
    if n < 16 ∨ toInt32 n > len then .ok (ret, st)
    else (rdNum mem (h + 12) 4).bind fun pid =>
    if !idOk pid portid then .ok (-1, 3, st.2) -- ESRCH
    else (rdNum mem (h + 8) 4).bind fun sq =>
    if !idOk sq seq then .ok (-1, 71, st.2) -- EPROTO
    else (rdNum mem (h + 6) 2).bind fun flags =>
    if flags / 16 % 2 = 1 then .ok (-1, 4, st.2) -- NLM_F_DUMP_INTR is 16; EINTR
    else (rdNum mem (h + 4) 2).bind fun type =>
    let cont (r : Int) (st : Nat × σ) : Res (Int × Nat × σ) := cbRunWith ctl mem seq portid cb fuel (h + align4 n) (toInt32 (len - align4 n)) r st
    if type ≥ 16 then
      match cb with
      | some cb => (cb h st).bind fun (r, st) => if r ≤ 0 then .ok (r, st) else cont r st
      | none => cont ret st
    else if type = 0 ∨ type ≥ 5 then cont ret st
    else (ctl mem h n type flags st.1).bind fun (r, e) => if r ≤ 0 then .ok (r, e, st.2) else cont r (e, st.2)

/-- netlink.h:473-479 `mnl_cb_run2` with `mnlg_cb_array` (682-687). -/
def cbRun {σ : Type} (mem : List UInt8) (seq portid : Nat) (cb : Option (Nat → Nat × σ → Res (Int × Nat × σ))) :
    Nat → Nat → Int → Int → Nat × σ → Res (Int × Nat × σ) := cbRunWith ctlCb mem seq portid cb

/-- netlink.h:396-422: the control callbacks of `default_cb_array`: the end of a dump stops without looking at its error code. -/
def defaultCtl : CtlCb := fun mem h len type flags errno => if type = 3 then .ok (0, errno) else ctlCb mem h len type flags errno

/-- netlink.h:689-703 `mnlg_socket_recv_run`: results of the successive calls of `recvmsg`; `running` if it waits for more. -/
def recvRun {σ : Type} (seq portid : Nat) (cb : Option (List UInt8 → Nat → Nat × σ → Res (Int × Nat × σ))) :
    List Recv → Nat × σ → Res (Int × Nat × σ)
  | [], _ => .running
  | .err e :: _, st => .ok (-1, e, st.2)
  | .msg data stale :: l, st =>
    if data.length = 0 then .ok (0, st)
    else (cbRun (data ++ stale) seq portid (cb.map fun f => f (data ++ stale)) (data.length + 1) 0 data.length 1 st).bind fun (r, st) =>
      if r > 0 then recvRun seq portid cb l st else .ok (r, st)

end WG
