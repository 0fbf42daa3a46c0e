import Verif.Spec.NetlinkOpen
/-! What a request to add or delete a WireGuard interface is, independently of the code (rtnetlink(7)). -/
namespace WG.Spec

/-- A request to add (`true`) or delete an interface of kind `wireguard`: type 16 (RTM_NEWLINK) with flags 0x605 (a request, to be acknowledged, which creates and does not accept an
existing interface), or type 17 (RTM_DELLINK) with flags 5; a zero `struct ifinfomsg`; and exactly the attributes name (IFLA_IFNAME, 3), ended by its only NUL, and, in the
nest IFLA_LINKINFO (18), the kind (IFLA_INFO_KIND, 1). -/
def readLinkChange (msg : List UInt8) : Option (Bool × List UInt8) :=
  if 32 ≤ msg.length ∧ le (msg.take 4) = msg.length ∧ (msg.drop 16).take 16 = List.replicate 16 0 then
    let name := match attrs (msg.drop 32) with
      | some [(3, n), (18, k)] => if n.getLast? = some 0 ∧ 0 ∉ n.dropLast ∧ attrs k = some [(1, b!"wireguard" ++ [0])] then some n.dropLast else none
      | _ => none
    if le ((msg.drop 4).take 2) = 16 ∧ le ((msg.drop 6).take 2) = 0x605 then name.map (true, ·)
    else if le ((msg.drop 4).take 2) = 17 ∧ le ((msg.drop 6).take 2) = 5 then name.map (false, ·)
    else none
  else none

end WG.Spec
