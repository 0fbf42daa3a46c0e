import Verif.Spec.QuickRun
import Verif.Model.Hatchet
/-! Where a Linux system has its name servers, and what commands do to it. -/
namespace WG.Spec.Hatchet
open WG.Quick WG.Quick.Hatchet WG.Spec.Quick

/-- `/etc/resolv.conf` itself; what is mounted over it, the last on top; what resolvconf was told for each interface. -/
structure Dns where
  file : Option (List UInt8)
  mounts : List (List UInt8)
  records : List (CStr × List UInt8)

/-- What programs read. -/
def Dns.visible (d : Dns) : Option (List UInt8) := match d.mounts with | t :: _ => some t | [] => d.file

/-- A command that fails changes nothing. One that mounts a file over `/etc/resolv.conf` covers what is there, `umount` uncovers it. -/
def effect (d : Dns) (e : Ev) : Dns :=
  if e.2.status ≠ 0 then d else
  match e.1 with
  | .act argv text =>
    if argv = [b!"touch", b!"/etc/resolv.conf"] then { d with file := some (d.file.getD []) }
    else if argv = [b!"unshare", b!"-m", b!"--propagation", b!"shared", b!"bash", b!"-c", innerScript] then { d with mounts := text :: d.mounts }
    else if argv = [b!"umount", b!"/etc/resolv.conf"] then { d with mounts := d.mounts.tail }
    else match argv with
    | [a, b, i, m, z, x] => if a = b!"resolvconf" ∧ b = b!"-a" ∧ m = b!"-m" ∧ z = b!"0" ∧ x = b!"-x" then { d with records := (i, text) :: d.records.filter (·.1 ≠ i) } else d
    | [a, b, i] => if a = b!"resolvconf" ∧ b = b!"-d" then { d with records := d.records.filter (·.1 ≠ i) } else d
    | _ => d
  | _ => d

/-- After all that happened. -/
def Dns.after (d : Dns) (h : List Ev) : Dns := h.foldl effect d

/-- The name servers of a file: what follows `nameserver ` on the lines that begin with it, in order. -/
def Servers (text : List UInt8) (l : List (List UInt8)) : Prop :=
  ∃ lines : List (List UInt8), text = lines.flatMap (· ++ b!"\n") ∧ (∀ t ∈ lines, (10 : UInt8) ∉ t) ∧
    l = (lines.filter (b!"nameserver ".isPrefixOf ·)).map (·.drop 11)

/-- `resolvconf` is not openresolv, ever. -/
def NoOpenresolv (w : World) : Prop := ∀ h, ¬ b!"openresolv " <+: captured (w h (.query [b!"resolvconf", b!"--version"])).out

end WG.Spec.Hatchet
