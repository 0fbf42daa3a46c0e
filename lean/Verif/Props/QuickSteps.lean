import Verif.Props.QuickRun
/-!
C56 `wg-quick up`: the MTU. C57 `wg-quick up`: the routes.
-/
namespace WG
open Spec Spec.Quick Quick

namespace Quick

/-- `ip link set …`. -/
def isLinkUp : Call → Bool
  | .act (_ :: b :: x :: _) _ => b == b!"link" && x == b!"set"
  | _ => false

theorem mem_acts {h : List Ev} {a : Call} : a ∈ acts h ↔ (∃ e ∈ h, e.1 = a) ∧ isAct a = true := by
  unfold acts
  rw [List.mem_filter, List.mem_map]

theorem family_cases (r : CStr) : family r = b!"-6" ∨ family r = b!"-4" := by unfold family; split <;> simp

/-- No command of the kind. -/
def Free (p : Call → Bool) (h : List Ev) : Prop := ∀ e ∈ h, p e.1 = false

theorem Free.nil {p : Call → Bool} : Free p [] := by intro e he; cases he
theorem Free.cons {p : Call → Bool} {e : Ev} {h : List Ev} (h1 : p e.1 = false) (h2 : Free p h) : Free p (e :: h) := by
  intro x hx
  rcases List.mem_cons.1 hx with rfl | hx
  · exact h1
  · exact h2 x hx
theorem Free.append {p : Call → Bool} {h h' : List Ev} (h1 : Free p h) (h2 : Free p h') : Free p (h ++ h') := by
  intro x hx
  rcases List.mem_append.1 hx with hx | hx
  · exact h1 x hx
  · exact h2 x hx
theorem Free.acts {p : Call → Bool} {h : List Ev} (h1 : Free p h) {a : Call} (ha : a ∈ acts h) : p a = false := by
  obtain ⟨⟨e, he, rfl⟩, _⟩ := mem_acts.1 ha
  exact h1 e he

/-- Classes of commands that are neither hooks nor queries. -/
def Plain (p : Call → Bool) : Prop := (∀ t, p (.hook t) = false) ∧ ∀ argv, p (.query argv) = false

theorem plain_linkUp : Plain isLinkUp := ⟨fun _ => rfl, fun _ => rfl⟩
theorem plain_routing : Plain isRouting := ⟨fun _ => rfl, fun _ => rfl⟩

theorem free_hooks {p : Call → Bool} (hp : Plain p) {c : Cfg} {hs : List CStr} {l : List Ev} (h : HookSteps c hs l) : Free p l := by
  unfold HookSteps at h
  induction h with
  | nil => exact .nil
  | cons h _ ih =>
    obtain ⟨t, ht, _⟩ := h
    exact .cons (by rw [ht]; exact hp.1 t) ih

theorem free_added {p : Call → Bool} (hp : Plain p) {c : Cfg} (ha : p (linkAdd c) = false) (hu : p (cmd [c.userspace, c.iface]) = false)
    {l : List Ev} (h : Added c l) : Free p l := by
  rcases h with ⟨r, rfl, _⟩ | ⟨r, m, u, a, rfl, _⟩
  · exact .cons ha .nil
  · exact .cons ha (.cons (hp.2 _) (.cons (hp.2 _) (.cons hu .nil)))

theorem free_prefix {p : Call → Bool} (hp : Plain p) {pre : CStr} {l : List Ev} (h : PrefixShown pre l) : Free p l := by
  rcases h with ⟨t, _, _, rfl⟩ | ⟨t, r, _, _, _, rfl, _⟩
  · exact .cons (hp.2 _) .nil
  · exact .cons (hp.2 _) (.cons (hp.2 _) .nil)

theorem free_dns {p : Call → Bool} (hp : Plain p) {c : Cfg}
    (hd : ∀ pre t, p (.act [b!"resolvconf", b!"-a", pre ++ c.iface, b!"-m", b!"0", b!"-x"] t) = false) {l : List Ev} (h : DnsStep c l) : Free p l := by
  unfold DnsStep at h
  split at h
  · subst h; exact .nil
  · obtain ⟨pre, l', r, h, rfl⟩ := h
    exact (free_prefix hp h).append (.cons (hd _ _) .nil)

theorem free_table {p : Call → Bool} (hp : Plain p) {m n : Nat} {l : List Ev} (h : FreeTable m n l) : Free p l := by
  induction h with
  | free _ _ => exact .cons (hp.2 _) (.cons (hp.2 _) .nil)
  | used4 _ _ ih => exact .cons (hp.2 _) ih
  | used6 _ _ _ ih => exact .cons (hp.2 _) (.cons (hp.2 _) ih)

theorem free_mark {c : Cfg} {t : CStr} {l : List Ev} (h : MarkStep c t l) : Free isLinkUp l := by
  obtain ⟨m, ⟨_, _, rfl⟩ | ⟨_, n, lf, r, hf, rfl, rfl⟩⟩ := h
  · exact .cons rfl .nil
  · exact .cons rfl ((free_table plain_linkUp hf).append (.cons (by simp [isLinkUp, cmd]) .nil))

theorem free_route {c : Cfg} {r : CStr} {l : List Ev} (h : RouteStep c r l) : Free isLinkUp l := by
  have hf : ∀ x y t, isLinkUp (.act (x :: family r :: y) t) = false := by
    intro x y t
    rcases family_cases r with h | h <;> rw [h] <;> cases y <;> simp [isLinkUp]
  unfold RouteStep at h
  split at h
  · subst h; exact .nil
  split at h
  · obtain ⟨d, rfl⟩ := h
    exact .cons (hf _ _ _) .nil
  split at h
  · obtain ⟨t, lm, r1, r2, r3, a, addrs, ls, lf, hm, _, ⟨n, d, rfl⟩, hs, rfl⟩ := h
    refine (free_mark hm).append ((Free.cons (hf _ _ _) (.cons (hf _ _ _) (.cons (hf _ _ _) (.cons rfl .nil)))).append (Free.append ?_ (.cons rfl (.cons ?_ .nil))))
    · split at hs
      · subst hs; exact .nil
      · obtain ⟨d, rfl⟩ := hs; exact .cons rfl .nil
    · dsimp only
      split <;> rfl
  · obtain ⟨q, h⟩ := h
    split at h
    · subst h; exact .cons rfl .nil
    · obtain ⟨d, rfl⟩ := h; exact .cons rfl (.cons (hf _ _ _) .nil)

theorem free_flatten {p : Call → Bool} {c : Cfg} {rs : List CStr} {ls : List (List Ev)} (h : List.Forall₂ (RouteStep c) rs ls)
    (hp : ∀ r l, RouteStep c r l → Free p l) : Free p ls.flatten := by
  induction h with
  | nil => exact .nil
  | cons h _ ih => exact (hp _ _ h).append ih

theorem free_addrs {p : Call → Bool} {c : Cfg} (hp : ∀ a, p (addrAct c a) = false) {as : List CStr} {l : List Ev}
    (h : List.Forall₂ (fun a (e : Ev) => e.1 = addrAct c a) as l) : Free p l := by
  induction h with
  | nil => exact .nil
  | cons h _ ih => exact .cons (by rw [h]; exact hp _) ih

theorem addrs_mem {c : Cfg} {as : List CStr} {l : List Ev} (h : List.Forall₂ (fun a (e : Ev) => e.1 = addrAct c a) as l) :
    ∀ a ∈ as, addrAct c a ∈ acts l := by
  induction h with
  | nil => intro a ha; cases ha
  | @cons x e as l h _ ih =>
    intro a ha
    rcases List.mem_cons.1 ha with rfl | ha
    · exact mem_acts.2 ⟨⟨e, List.mem_cons_self .., h⟩, rfl⟩
    · obtain ⟨⟨e', he, h'⟩, _⟩ := mem_acts.1 (ih a ha)
      exact mem_acts.2 ⟨⟨e', List.mem_cons_of_mem _ he, h'⟩, rfl⟩

theorem addr_linkUp (c : Cfg) (a : CStr) : isLinkUp (addrAct c a) = false := by
  rcases family_cases a with h | h <;> simp [isLinkUp, addrAct, cmd, h]

end Quick

/-! ### C56 -/

/-- **C56** When `up` ends with success, the interface was brought up exactly once, after all addresses were assigned and before
DNS and routes, with the configured MTU, or else with 80 less than the MTU of the path: the largest MTU of the routes to the
endpoints that `wg` reports, or else that of the first default route, or else 1500 (`MtuStep`). -/
theorem c56_mtu (c : Cfg) (w : World) (u : Unit) (h1 : (w [] (upCheck c)).sig = false) (h2 : captured (w [] (upCheck c)).out = [])
    (ho : (cmdUp c w {}).1 = .ok u) :
    ∃ before mid after, (cmdUp c w {}).2.hist = before ++ (mid ++ after) ∧ MtuStep c mid ∧
      (∀ a ∈ c.opts.addresses, addrAct c a ∈ acts before) ∧
      (∀ m, upAct c m ∉ acts before) ∧ (∀ m, upAct c m ∉ acts after) := by
  obtain ⟨a, b, hh, hadd, ⟨hpre, rset, haddrs, hmtu, hdns, q, routes, hroutes, hpost, rfl, h3, h4, h5, h6, h7, ⟨ls, h8, rfl⟩, h9⟩, hok⟩ :=
    c50_success c w u h1 h2 ho
  refine ⟨(upCheck c, w [] (upCheck c)) :: (a ++ (hpre ++ (.act [b!"wg", b!"setconf", c.iface] (c.opts.wgConfig ++ b!"\n"), rset) :: haddrs)), hmtu,
    hdns ++ (.query [b!"wg", b!"show", c.iface, b!"allowed-ips"], q) :: (ls.flatten ++ hpost), ?_, h5, ?_, ?_, ?_⟩
  · rw [hh]; simp
  · intro x hx
    obtain ⟨⟨e, he, h⟩, _⟩ := mem_acts.1 (addrs_mem h4 x hx)
    exact mem_acts.2 ⟨⟨e, by simp [he], h⟩, rfl⟩
  · intro m hm
    have hf : Free isLinkUp ((upCheck c, w [] (upCheck c)) :: (a ++ (hpre ++ (.act [b!"wg", b!"setconf", c.iface] (c.opts.wgConfig ++ b!"\n"), rset) :: haddrs))) :=
      .cons rfl ((free_added plain_linkUp rfl rfl hadd).append ((free_hooks plain_linkUp h3).append (.cons (by simp [isLinkUp]) (free_addrs (addr_linkUp c) h4))))
    exact absurd (hf.acts hm) (by simp [isLinkUp, upAct, cmd])
  · intro m hm
    have hf : Free isLinkUp (hdns ++ (.query [b!"wg", b!"show", c.iface, b!"allowed-ips"], q) :: (ls.flatten ++ hpost)) :=
      (free_dns plain_linkUp (fun pre t => by simp [isLinkUp]) h6).append (.cons rfl ((free_flatten h8 fun _ _ => free_route).append (free_hooks plain_linkUp h9)))
    exact absurd (hf.acts hm) (by simp [isLinkUp, upAct, cmd])

/-- **C56** With an MTU in the configuration nothing is looked up. -/
theorem c56_configured (c : Cfg) (hm : c.opts.mtu ≠ []) (l : List Ev) : MtuStep c l ↔ ∃ r, l = [(upAct c c.opts.mtu, r)] := by
  unfold MtuStep
  rw [if_pos hm]

namespace Quick

theorem remainder_iff (line x : CStr) : Remainder line x ↔ x = afterFirst line := by
  constructor
  · rintro ⟨w, g, rfl, h1, h2, h3, h4⟩
    unfold afterFirst
    have e1 : (w ++ g ++ x).dropWhile (fun c => !isIfs c) = g ++ x := by
      rw [List.append_assoc, List.dropWhile_append_of_pos (fun c hc => by rw [isIfs_eq, h1 c hc]; rfl)]
      cases g with
      | nil => rw [h4 rfl]; rfl
      | cons d g => rw [List.cons_append, List.dropWhile_cons_of_neg (by rw [isIfs_eq, h2 d (List.mem_cons_self ..)]; simp)]
    rw [e1, List.dropWhile_append_of_pos (fun c hc => by rw [isIfs_eq]; exact h2 c hc)]
    cases x with
    | nil => rfl
    | cons d x => rw [List.dropWhile_cons_of_neg (by rw [isIfs_eq, h3 d rfl]; simp)]
  · rintro rfl; exact remainder_sound line

theorem remainders_iff (out : List UInt8) (xs : List CStr) : Remainders out xs ↔ xs = (readLoopLines out).map afterFirst := by
  constructor
  · rintro ⟨lines, h1, h2⟩
    rw [endedLines_iff] at h1
    subst h1
    generalize readLoopLines out = ls at h2 ⊢
    induction h2 with
    | nil => rfl
    | cons h _ ih => rw [List.map_cons, ← ih, (remainder_iff _ _).1 h]
  · rintro rfl; exact remainders_sound out

theorem mtuIn_unique {s : CStr} {n m : Nat} (h1 : MtuIn s n) (h2 : MtuIn s m) : n = m := by
  rw [← mtuIn_iff] at h1 h2
  rw [h1] at h2
  simpa using h2

theorem devIn_unique {s d e : CStr} (h1 : DevIn s d) (h2 : DevIn s e) : d = e := by
  rw [← devIn_iff] at h1 h2
  rw [h1] at h2
  simpa using h2

theorem host_unique {s d e : CStr} (h1 : EndpointHost s d) (h2 : EndpointHost s e) : d = e := by
  rw [← endpointHost_iff] at h1 h2
  rw [h1] at h2
  simpa using h2

theorem mtuOf_unique {o : CStr} {m1 m2 : Option Nat} {l1 l2 x1 x2 : List Ev} (h1 : MtuOf o m1 l1) (h2 : MtuOf o m2 l2) (he : l1 ++ x1 = l2 ++ x2) :
    m1 = m2 ∧ l1 = l2 := by
  cases h1 with
  | route a =>
    cases h2 with
    | route b => rw [mtuIn_unique a b]; exact ⟨rfl, rfl⟩
    | link b => exact absurd a (b _)
    | linkNone b => exact absurd a (b _)
    | none b => exact absurd a (b _)
  | link a b c =>
    cases h2 with
    | route d => exact absurd d (a _)
    | link d e f =>
      simp only [List.cons_append, List.cons.injEq] at he
      obtain ⟨⟨-, hr⟩, -⟩ := Prod.mk.injEq .. ▸ he
      subst hr
      rw [devIn_unique b e, mtuIn_unique c f]; exact ⟨rfl, rfl⟩
    | linkNone d e f =>
      simp only [List.cons_append, List.cons.injEq, Prod.mk.injEq] at he
      rw [← he.1.2] at f
      exact absurd c (f _)
    | none _ d => exact absurd b (d _)
  | linkNone a b c =>
    cases h2 with
    | route d => exact absurd d (a _)
    | link d e f =>
      simp only [List.cons_append, List.cons.injEq, Prod.mk.injEq] at he
      rw [← he.1.2] at f
      exact absurd f (c _)
    | linkNone d e f =>
      simp only [List.cons_append, List.cons.injEq, Prod.mk.injEq] at he
      rw [devIn_unique b e, he.1.2]; exact ⟨rfl, rfl⟩
    | none _ d => exact absurd b (d _)
  | none a b =>
    cases h2 with
    | route d => exact absurd d (a _)
    | link _ d => exact absurd d (b _)
    | linkNone _ d => exact absurd d (b _)
    | none => exact ⟨rfl, rfl⟩

theorem endpointMtus_unique {es : List CStr} {ms1 ms2 : List Nat} {l1 l2 x1 x2 : List Ev} (h1 : EndpointMtus es ms1 l1) (h2 : EndpointMtus es ms2 l2)
    (he : l1 ++ x1 = l2 ++ x2) : ms1 = ms2 ∧ l1 = l2 := by
  induction h1 generalizing ms2 l2 x1 x2 with
  | nil => cases h2; exact ⟨rfl, rfl⟩
  | skip a _ ih =>
    cases h2 with
    | skip _ h => exact ih h he
    | look b => exact absurd b (a _)
  | look a b _ ih =>
    cases h2 with
    | skip c => exact absurd a (c _)
    | look c d h =>
      simp only [List.cons_append, List.cons.injEq, Prod.mk.injEq, List.append_assoc] at he
      obtain ⟨⟨-, rfl⟩, he⟩ := he
      obtain ⟨rfl, rfl⟩ := mtuOf_unique b d he
      obtain ⟨rfl, rfl⟩ := ih h (List.append_cancel_left he)
      rw [host_unique a c]; exact ⟨rfl, rfl⟩

end Quick

/-- **C56** The path MTU is determined by what `wg` and `ip` showed. -/
theorem c56_determined (c : Cfg) (b1 b2 : Nat) (l : List Ev) (h1 : PathMtu c b1 l) (h2 : PathMtu c b2 l) : b1 = b2 := by
  obtain ⟨r, eps, ms, le, ld, rfl, a1, a2, a3⟩ := h1
  obtain ⟨r', eps', ms', le', ld', e, c1, c2, c3⟩ := h2
  simp only [List.cons.injEq, Prod.mk.injEq] at e
  obtain ⟨⟨-, rfl⟩, e⟩ := e
  rw [remainders_iff] at a1 c1
  subst a1 c1
  obtain ⟨rfl, rfl⟩ := endpointMtus_unique a2 c2 e
  have e := List.append_cancel_left e
  rcases a3 with ⟨n1, n2, n3, n4⟩ | ⟨n1, r1, line1, m1, l1, f1, g1, rfl, rfl⟩
  · rcases c3 with ⟨k1, k2, k3, k4⟩ | ⟨k1, _⟩
    · exact Nat.le_antisymm (k3 _ n2) (n3 _ k2)
    · exact absurd (k1 _ n2) n1
  · rcases c3 with ⟨k1, k2, k3, k4⟩ | ⟨k1, r2, line2, m2, l2, f2, g2, rfl, rfl⟩
    · exact absurd (n1 _ k2) k1
    · simp only [List.cons.injEq, Prod.mk.injEq] at e
      obtain ⟨⟨-, rfl⟩, rfl⟩ := e
      obtain ⟨s1, a, a'⟩ := f1
      obtain ⟨s2, b, b'⟩ := f2
      rw [before_iff] at a b
      subst a b
      rw [trimmed_iff] at a' b'
      subst a' b'
      obtain ⟨rfl, _⟩ := mtuOf_unique (x1 := []) (x2 := []) g1 g2 rfl
      rfl

/-- `exCfg` without DNS and hooks. -/
def exMtuCfg : Cfg := { exCfg with opts := { wgConfig := b!"[Peer]\n", addresses := [b!"10.0.0.2/24"] } }

/-- Two peers, one reached through a route with an MTU of its own, the other through eth0. -/
def exMtuWorld : World := fun _ c =>
  if c = .query [b!"wg", b!"show", b!"wg0", b!"endpoints"] then ⟨0, b!"KEY1\t192.0.2.1:51820\nKEY2\t(none)\nKEY3\t[2001:db8::1]:51820\n", false⟩
  else if c = .query [b!"ip", b!"route", b!"get", b!"192.0.2.1"] then ⟨0, b!"192.0.2.1 via 10.9.0.1 dev tun0 src 10.9.0.2 uid 0 \n    cache mtu 1380 \n", false⟩
  else if c = .query [b!"ip", b!"route", b!"get", b!"2001:db8::1"] then ⟨0, b!"2001:db8::1 from :: via fe80::1 dev eth0 metric 1024\n", false⟩
  else if c = .query [b!"ip", b!"link", b!"show", b!"dev", b!"eth0"] then ⟨0, b!"2: eth0: <BROADCAST> mtu 1492 qdisc mq\n", false⟩
  else ⟨0, [], false⟩

/-- The hypotheses of `c56_mtu` are met; the MTU is 1492 - 80. -/
example : (exMtuWorld [] (upCheck exMtuCfg)).sig = false ∧ captured (exMtuWorld [] (upCheck exMtuCfg)).out = [] ∧
    (cmdUp exMtuCfg exMtuWorld {}).1 = .ok () ∧ upAct exMtuCfg b!"1412" ∈ acts (cmdUp exMtuCfg exMtuWorld {}).2.hist := by decide +kernel

end WG
