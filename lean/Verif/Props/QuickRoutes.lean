import Verif.Props.QuickSteps
import Verif.Proof.Uapi
import Mathlib.Data.List.Sort
/-!
C57 `wg-quick up`: the routes.
-/
namespace WG
open Spec Spec.Quick Quick

/-- **C57** Routes are added for exactly the networks that `wg` reports as allowed IPs, longest prefixes first, each as `Table`
says (`RouteStep`), after the interface is up and before the PostUp hooks. -/
theorem c57_routes (c : Cfg) (w : World) (u : Unit) (h1 : (w [] (upCheck c)).sig = false) (h2 : captured (w [] (upCheck c)).out = [])
    (hs : LongestFirst c.sort) (ho : (cmdUp c w {}).1 = .ok u) :
    ∃ before mtu r mid q routes order ls after,
      (cmdUp c w {}).2.hist = before ++ ((upAct c mtu, r) :: (mid ++ (.query [b!"wg", b!"show", c.iface, b!"allowed-ips"], q) :: (ls.flatten ++ after))) ∧
      RoutesShown q.out routes ∧ order.Perm routes ∧ order.Pairwise (fun a b => prefixLen b ≤ prefixLen a) ∧
      List.Forall₂ (RouteStep c) order ls ∧ DnsStep c mid ∧ HookSteps c c.opts.postUp after ∧
      ∀ e ∈ ls.flatten, e.2.sig = false ∧ (isAct e.1 = true → e.2.status = 0) := by
  obtain ⟨a, b, hh, hadd, ⟨hpre, rset, haddrs, hmtu, hdns, q, routes, hroutes, hpost, rfl, h3, h4, h5, h6, h7, ⟨ls, h8, rfl⟩, h9⟩, hok⟩ :=
    c50_success c w u h1 h2 ho
  have hm : ∃ l' mtu r, hmtu = l' ++ [(upAct c mtu, r)] := by
    unfold MtuStep at h5
    split at h5
    · obtain ⟨r, rfl⟩ := h5; exact ⟨[], _, r, rfl⟩
    · obtain ⟨base, l', r, _, rfl⟩ := h5; exact ⟨l', _, r, rfl⟩
  obtain ⟨l', mtu, r, rfl⟩ := hm
  refine ⟨(upCheck c, w [] (upCheck c)) :: (a ++ (hpre ++ (.act [b!"wg", b!"setconf", c.iface] (c.opts.wgConfig ++ b!"\n"), rset) :: (haddrs ++ l'))), mtu, r,
    hdns, q, routes, c.sort routes, ls, hpost, ?_, h7, (hs routes).1, (hs routes).2, h8, h6, h9, ?_⟩
  · rw [hh]; simp
  · intro e he
    exact hok e (by simp only [List.mem_append, List.mem_cons]; exact .inr (.inr (.inr (.inr (.inr (.inr (.inl he)))))))

namespace Quick

theorem addr_routing (c : Cfg) (a : CStr) : isRouting (addrAct c a) = false := by
  simp [isRouting, addrAct, cmd]

theorem free_mtuOf {p : Call → Bool} (hp : Plain p) {o : CStr} {m : Option Nat} {l : List Ev} (h : MtuOf o m l) : Free p l := by
  cases h with
  | route _ => exact .nil
  | link _ _ _ => exact .cons (hp.2 _) .nil
  | linkNone _ _ _ => exact .cons (hp.2 _) .nil
  | none _ _ => exact .nil

theorem free_endpoints {p : Call → Bool} (hp : Plain p) {es : List CStr} {ms : List Nat} {l : List Ev} (h : EndpointMtus es ms l) : Free p l := by
  induction h with
  | nil => exact .nil
  | skip _ _ ih => exact ih
  | look _ h _ ih => exact .cons (hp.2 _) ((free_mtuOf hp h).append ih)

theorem free_mtu {p : Call → Bool} (hp : Plain p) {c : Cfg} (hu : ∀ m, p (upAct c m) = false) {l : List Ev} (h : MtuStep c l) : Free p l := by
  unfold MtuStep at h
  split at h
  · obtain ⟨r, rfl⟩ := h; exact .cons (hu _) .nil
  · obtain ⟨base, l', r, ⟨r1, eps, ms, le, ld, rfl, _, he, hd⟩, rfl⟩ := h
    refine Free.append (.cons (hp.2 _) ((free_endpoints hp he).append ?_)) (.cons (hu _) .nil)
    rcases hd with ⟨_, _, _, rfl⟩ | ⟨_, _, _, _, _, _, hm, rfl, _⟩
    · exact .nil
    · exact .cons (hp.2 _) (free_mtuOf hp hm)

end Quick

/-- **C57** With `Table = off` no route, rule, kernel setting or firewall rule is changed (other than by hooks). -/
theorem c57_off (c : Cfg) (w : World) (u : Unit) (h1 : (w [] (upCheck c)).sig = false) (h2 : captured (w [] (upCheck c)).out = [])
    (ho : (cmdUp c w {}).1 = .ok u) (ht : c.opts.table = b!"off") (hu : c.userspace ≠ b!"ip" ∧ c.userspace ≠ b!"nft" ∧
      c.userspace ≠ b!"iptables-restore" ∧ c.userspace ≠ b!"ip6tables-restore" ∧ c.userspace ≠ b!"sysctl") :
    ∀ a ∈ acts (cmdUp c w {}).2.hist, isRouting a = false := by
  obtain ⟨a, b, hh, hadd, ⟨hpre, rset, haddrs, hmtu, hdns, q, routes, hroutes, hpost, rfl, h3, h4, h5, h6, h7, ⟨ls, h8, rfl⟩, h9⟩, hok⟩ :=
    c50_success c w u h1 h2 ho
  have hls : ls.flatten = [] := by
    generalize c.sort routes = rs at h8
    clear hh hok
    induction h8 with
    | nil => rfl
    | cons h _ ih =>
      unfold RouteStep at h
      rw [if_pos ht] at h
      rw [List.flatten_cons, h, ih]; rfl
  intro x hx
  refine Free.acts (h := (cmdUp c w {}).2.hist) ?_ hx
  rw [hh, hls]
  refine .cons rfl ((free_added plain_routing (by simp [isRouting, linkAdd]) ?_ hadd).append ((free_hooks plain_routing h3).append (.cons (by simp [isRouting])
    ((free_addrs (addr_routing c) h4).append ((free_mtu plain_routing (fun m => by simp [isRouting, upAct, cmd]) h5).append
      ((free_dns plain_routing (fun _ _ => by simp [isRouting]) h6).append (.cons rfl ((Free.nil).append (free_hooks plain_routing h9)))))))))
  simp [isRouting, cmd, hu]

/-- **C57** With a table of its own in the configuration, each network is added to that table and nothing else is done for it. -/
theorem c57_table (c : Cfg) (r : List UInt8) (l : List Ev) (h1 : c.opts.table ≠ []) (h2 : c.opts.table ≠ b!"auto") (h3 : c.opts.table ≠ b!"off") :
    RouteStep c r l ↔ ∃ d, l = [(cmd [b!"ip", family r, b!"route", b!"add", r, b!"dev", c.iface, b!"table", c.opts.table], d)] := by
  unfold RouteStep
  rw [if_neg h3, if_pos ⟨h1, h2⟩]

/-- **C57** Otherwise a network other than a default route is added to the main table, unless `ip` already shows a route for it on
this interface. -/
theorem c57_network (c : Cfg) (r : List UInt8) (l : List Ev) (h1 : c.opts.table = [] ∨ c.opts.table = b!"auto") (h2 : ¬ b!"/0" <:+ r)
    (h : RouteStep c r l) :
    ∃ q, (.query [b!"ip", family r, b!"route", b!"show", b!"dev", c.iface, b!"match", r], q) ∈ l ∧
      acts l = if captured q.out ≠ [] then [] else [cmd [b!"ip", family r, b!"route", b!"add", r, b!"dev", c.iface]] := by
  unfold RouteStep at h
  rw [if_neg (by rcases h1 with h1 | h1 <;> rw [h1] <;> decide), if_neg (by rcases h1 with h1 | h1 <;> rw [h1] <;> decide), if_neg h2] at h
  obtain ⟨q, h⟩ := h
  refine ⟨q, ?_⟩
  split at h
  · rename_i hq
    subst h
    exact ⟨List.mem_singleton_self _, by rw [if_pos hq]; rfl⟩
  · rename_i hq
    obtain ⟨d, rfl⟩ := h
    exact ⟨List.mem_cons_self .., by rw [if_neg hq]; rfl⟩

/-- **C57** and a default route is set up as `DefaultStep` describes. -/
theorem c57_default (c : Cfg) (r : List UInt8) (l : List Ev) (h1 : c.opts.table = [] ∨ c.opts.table = b!"auto") (h2 : b!"/0" <:+ r) :
    RouteStep c r l ↔ DefaultStep c r l := by
  unfold RouteStep
  rw [if_neg (by rcases h1 with h1 | h1 <;> rw [h1] <;> decide), if_neg (by rcases h1 with h1 | h1 <;> rw [h1] <;> decide), if_pos h2]

namespace Quick

/-! ### One table -/

theorem _root_.WG.Spec.Quick.MarkAfter.append {c : Cfg} {m m' m'' : Option Nat} {a b : List Ev} (h1 : MarkAfter c m a m') (h2 : MarkAfter c m' b m'') : MarkAfter c m (a ++ b) m'' := by
  induction h1 with
  | nil => exact h2
  | set hr _ ih => exact .set hr (ih h2)
  | other ho _ ih => exact .other ho (ih h2)

theorem _root_.WG.Spec.Quick.MarkKept.left {c : Cfg} {m : Option Nat} {a b : List Ev} (h : MarkKept c m (a ++ b)) : MarkKept c m a := by
  rintro x y r m' rfl hm
  exact h x (y ++ b) r m' (by simp) hm

theorem _root_.WG.Spec.Quick.MarkKept.right {c : Cfg} {m m' : Option Nat} {a b : List Ev} (h : MarkKept c m (a ++ b)) (hm : MarkAfter c m a m') : MarkKept c m' b := by
  rintro x y r m'' rfl hm'
  exact h (a ++ x) y r m'' (by simp) (hm.append hm')

/-- Setting the mark. -/
def isMarkSet : Call → Bool
  | .act [_, b, _, x, _] _ => b == b!"set" && x == b!"fwmark"
  | _ => false

theorem plain_markSet : Plain isMarkSet := ⟨fun _ => rfl, fun _ => rfl⟩

theorem markAfter_free {c : Cfg} {m : Option Nat} {l : List Ev} (h : Free isMarkSet l) : MarkAfter c m l m := by
  induction l with
  | nil => exact .nil
  | cons e l ih =>
    refine .other ?_ (ih fun x hx => h x (List.mem_cons_of_mem _ hx))
    intro t ht
    have := h e (List.mem_cons_self ..)
    rw [ht] at this
    simp [isMarkSet, cmd] at this

theorem marked_of_shows {n : Nat} {r : Reply} (h : ShowsMark (some n) r) : Marked r := by
  obtain ⟨h1, x, h2, h3⟩ := h
  refine ⟨h1, ?_, ?_⟩ <;> rw [h2]
  · simp
  · intro h; simp at h

/-- The table chosen is the mark from then on. -/
theorem mark_step {c : Cfg} {t : CStr} {l : List Ev} {m : Option Nat} (h : MarkStep c t l) (hk : MarkKept c m l)
    (hok : ∀ e ∈ l, isAct e.1 = true → e.2.status = 0) : ∃ n, t = showDec n ∧ MarkAfter c m l (some n) ∧ ∀ k, m = some k → k = n := by
  obtain ⟨r, ⟨h1, h2, rfl⟩ | ⟨h1, n, lf, r', h2, rfl, rfl⟩⟩ := h
  · have hs := hk [] [] r m rfl .nil
    cases m with
    | none => exact absurd h1 hs
    | some n =>
      obtain ⟨_, x, h3, h4⟩ := hs
      exact ⟨n, h2 x n h3 h4, markAfter_free (.cons rfl .nil), fun k hk => by simpa using hk.symm⟩
  · have hs := hk [] _ r m rfl .nil
    cases m with
    | some n => exact absurd (marked_of_shows hs) h1
    | none =>
      refine ⟨n, rfl, ?_, by simp⟩
      refine MarkAfter.append (a := [_]) (markAfter_free (.cons rfl .nil)) (MarkAfter.append (markAfter_free (free_table plain_markSet h2)) (.set ?_ .nil))
      exact hok (cmd _, r') (List.mem_cons_of_mem _ (List.mem_append_right _ (List.mem_singleton_self _))) rfl

/-- The command selects packets by the mark, or fills a table: with the text `t` for mark and table. -/
def OneTable (c : Cfg) (t : CStr) (a : Call) : Prop :=
  (∀ f x y, a = cmd [b!"ip", f, b!"rule", b!"add", b!"not", b!"fwmark", x, b!"table", y] → x = t ∧ y = t) ∧
  (∀ f r y, a = cmd [b!"ip", f, b!"route", b!"add", r, b!"dev", c.iface, b!"table", y] → y = t)

/-- Commands of these two kinds. -/
def isTableCmd : Call → Bool
  | .act [_, _, x, y, _, _, _, _, _] _ => (x == b!"rule" || x == b!"route") && y == b!"add"
  | _ => false

theorem plain_tableCmd : Plain isTableCmd := ⟨fun _ => rfl, fun _ => rfl⟩

theorem oneTable_of {c : Cfg} {t : CStr} {a : Call} (h : isTableCmd a = false) : OneTable c t a := by
  constructor
  · rintro f x y rfl; simp [isTableCmd, cmd] at h
  · rintro f r y rfl; simp [isTableCmd, cmd] at h

theorem free_mark_table {c : Cfg} {t : CStr} {l : List Ev} (h : MarkStep c t l) : Free isTableCmd l := by
  obtain ⟨m, ⟨_, _, rfl⟩ | ⟨_, n, lf, r, hf, rfl, rfl⟩⟩ := h
  · exact .cons rfl .nil
  · exact .cons rfl ((free_table plain_tableCmd hf).append (.cons (by simp [isTableCmd, cmd]) .nil))

theorem free_default_tail {p : Call → Bool} (hp : Plain p) {c : Cfg} {r t : CStr} {as : List CStr} {ls lf : List Ev}
    (hs : p (cmd [b!"sysctl", b!"-q", b!"net.ipv4.conf.all.src_valid_mark=1"]) = false)
    (hf : ∀ x y z, p (.act [x, y] z) = false) (h1 : FirewallStep c r t as lf)
    (h2 : if c!":" ∈ r then ls = [] else ∃ d, ls = [(cmd [b!"sysctl", b!"-q", b!"net.ipv4.conf.all.src_valid_mark=1"], d)]) : Free p (ls ++ lf) := by
  obtain ⟨n, d, rfl⟩ := h1
  refine Free.append ?_ (.cons (hp.2 _) (.cons ?_ .nil))
  · split at h2
    · subst h2; exact .nil
    · obtain ⟨d, rfl⟩ := h2; exact .cons hs .nil
  · dsimp only
    split
    · exact hf _ _ _
    · exact hf _ _ _

/-- One route: either it has no table of its own and the mark stays, or both are the same. -/
theorem route_table {c : Cfg} {r : CStr} {l : List Ev} {m : Option Nat} (ht : c.opts.table = [] ∨ c.opts.table = b!"auto") (h : RouteStep c r l)
    (hk : MarkKept c m l) (hok : ∀ e ∈ l, isAct e.1 = true → e.2.status = 0) :
    (MarkAfter c m l m ∧ Free isTableCmd l) ∨
    (∃ n, MarkAfter c m l (some n) ∧ (∀ k, m = some k → k = n) ∧ ∀ e ∈ l, OneTable c (showDec n) e.1) := by
  by_cases h2 : b!"/0" <:+ r
  · rw [c57_default c r l ht h2] at h
    obtain ⟨t, lm, r1, r2, r3, a, as, ls, lf, hm, _, hf, hs, rfl⟩ := h
    obtain ⟨n, rfl, g1, g2⟩ := mark_step hm hk.left fun e he => hok e (List.mem_append_left _ he)
    refine .inr ⟨n, g1.append (markAfter_free ?_), g2, ?_⟩
    · exact Free.append (.cons (by simp [isMarkSet, cmd]) (.cons (by simp [isMarkSet, cmd]) (.cons (by simp [isMarkSet, cmd]) (.cons rfl .nil))))
        (free_default_tail plain_markSet (by simp [isMarkSet, cmd]) (fun _ _ _ => rfl) hf hs)
    · intro e he
      rcases List.mem_append.1 he with he | he
      · exact oneTable_of (free_mark_table hm e he)
      rcases List.mem_append.1 he with he | he
      · simp only [List.mem_cons, List.not_mem_nil, or_false] at he
        rcases he with rfl | rfl | rfl | rfl
        · constructor
          · rintro f x y h; simp only [cmd, Call.act.injEq, List.cons.injEq] at h; exact ⟨h.1.2.2.2.2.2.2.1.symm, h.1.2.2.2.2.2.2.2.2.1.symm⟩
          · rintro f r y h; simp [cmd] at h
        · exact oneTable_of (by simp [isTableCmd, cmd])
        · constructor
          · rintro f x y h; simp [cmd] at h
          · rintro f r y h; simp only [cmd, Call.act.injEq, List.cons.injEq] at h; exact h.1.2.2.2.2.2.2.2.2.1.symm
        · exact oneTable_of rfl
      · exact oneTable_of (free_default_tail plain_tableCmd (by simp [isTableCmd, cmd]) (fun _ _ _ => rfl) hf hs e he)
  · left
    unfold RouteStep at h
    rw [if_neg (by rcases ht with ht | ht <;> rw [ht] <;> decide), if_neg (by rcases ht with ht | ht <;> rw [ht] <;> decide), if_neg h2] at h
    obtain ⟨q, h⟩ := h
    split at h
    · subst h; exact ⟨markAfter_free (.cons rfl .nil), .cons rfl .nil⟩
    · obtain ⟨d, rfl⟩ := h
      exact ⟨markAfter_free (.cons rfl (.cons (by simp [isMarkSet, cmd]) .nil)), .cons rfl (.cons (by simp [isTableCmd, cmd]) .nil)⟩

theorem routes_table {c : Cfg} {rs : List CStr} {ls : List (List Ev)} (ht : c.opts.table = [] ∨ c.opts.table = b!"auto")
    (h : List.Forall₂ (RouteStep c) rs ls) (m : Option Nat)
    (hk : MarkKept c m ls.flatten) (hok : ∀ e ∈ ls.flatten, isAct e.1 = true → e.2.status = 0) :
    (MarkAfter c m ls.flatten m ∧ Free isTableCmd ls.flatten) ∨
    (∃ n, MarkAfter c m ls.flatten (some n) ∧ (∀ k, m = some k → k = n) ∧ ∀ e ∈ ls.flatten, OneTable c (showDec n) e.1) := by
  induction h generalizing m with
  | nil => exact .inl ⟨.nil, .nil⟩
  | @cons r l rs ls h _ ih =>
    rw [List.flatten_cons] at hk hok ⊢
    rcases route_table ht h hk.left (fun e he => hok e (List.mem_append_left _ he)) with ⟨a1, a2⟩ | ⟨n, a1, a2, a3⟩
    · rcases ih m (hk.right a1) (fun e he => hok e (List.mem_append_right _ he)) with ⟨b1, b2⟩ | ⟨n, b1, b2, b3⟩
      · exact .inl ⟨a1.append b1, a2.append b2⟩
      · refine .inr ⟨n, a1.append b1, b2, ?_⟩
        intro e he
        rcases List.mem_append.1 he with he | he
        · exact oneTable_of (a2 e he)
        · exact b3 e he
    · refine .inr ⟨n, ?_, a2, ?_⟩
      · rcases ih (some n) (hk.right a1) (fun e he => hok e (List.mem_append_right _ he)) with ⟨b1, b2⟩ | ⟨k, b1, b2, b3⟩
        · exact a1.append b1
        · have := b2 n rfl; subst this; exact a1.append b1
      · intro e he
        rcases List.mem_append.1 he with he | he
        · exact a3 e he
        rcases ih (some n) (hk.right a1) (fun e he => hok e (List.mem_append_right _ he)) with ⟨b1, b2⟩ | ⟨k, b1, b2, b3⟩
        · exact oneTable_of (b2 e he)
        · have := b2 n rfl; subst this; exact b3 e he

end Quick

/-- **C57** When wg-quick chooses the table itself, one number serves all default routes of both families: every rule added sends
packets without the mark `n` to table `n`, every route with a table goes to table `n`, and `n` is the mark the interface has in the
end; it is the mark `m` the interface had from its configuration, if it had one. (Provided `wg` shows the mark that was set.) -/
theorem c57_one_table (c : Cfg) (w : World) (u : Unit) (h1 : (w [] (upCheck c)).sig = false) (h2 : captured (w [] (upCheck c)).out = [])
    (ho : (cmdUp c w {}).1 = .ok u) (ht : c.opts.table = [] ∨ c.opts.table = b!"auto") (m : Option Nat) (hk : MarkKept c m (cmdUp c w {}).2.hist) :
    ∃ m', MarkAfter c m (cmdUp c w {}).2.hist m' ∧ (∀ k, m = some k → m' = some k) ∧ ∀ a ∈ acts (cmdUp c w {}).2.hist,
      (∀ f x y, a = cmd [b!"ip", f, b!"rule", b!"add", b!"not", b!"fwmark", x, b!"table", y] → ∃ n, m' = some n ∧ x = showDec n ∧ y = showDec n) ∧
      (∀ f r y, a = cmd [b!"ip", f, b!"route", b!"add", r, b!"dev", c.iface, b!"table", y] → ∃ n, m' = some n ∧ y = showDec n) := by
  obtain ⟨a, b, hh, hadd, ⟨hpre, rset, haddrs, hmtu, hdns, q, routes, hroutes, hpost, rfl, h3, h4, h5, h6, h7, ⟨ls, h8, rfl⟩, h9⟩, hok⟩ :=
    c50_success c w u h1 h2 ho
  have hsplit : (cmdUp c w {}).2.hist = ((upCheck c, w [] (upCheck c)) :: (a ++ (hpre ++ (.act [b!"wg", b!"setconf", c.iface] (c.opts.wgConfig ++ b!"\n"), rset) ::
      (haddrs ++ (hmtu ++ (hdns ++ [(.query [b!"wg", b!"show", c.iface, b!"allowed-ips"], q)])))))) ++ (ls.flatten ++ hpost) := by
    rw [hh]; simp
  have hfree : ∀ p : Call → Bool, Plain p → p (linkAdd c) = false → p (cmd [c.userspace, c.iface]) = false → (∀ x y z t, p (.act [x, y, z] t) = false) →
      (∀ a, p (addrAct c a) = false) → (∀ x, p (upAct c x) = false) → (∀ x y z u v w t, p (.act [x, y, z, u, v, w] t) = false) →
      Free p ((upCheck c, w [] (upCheck c)) :: (a ++ (hpre ++ (.act [b!"wg", b!"setconf", c.iface] (c.opts.wgConfig ++ b!"\n"), rset) ::
      (haddrs ++ (hmtu ++ (hdns ++ [(.query [b!"wg", b!"show", c.iface, b!"allowed-ips"], q)])))))) := by
    intro p hp x1 x2 x3 x4 x5 x6
    exact .cons (hp.2 _) ((free_added hp x1 x2 hadd).append ((free_hooks hp h3).append (.cons (x3 _ _ _ _) ((free_addrs x4 h4).append
      ((free_mtu hp x5 h5).append ((free_dns hp (fun _ _ => x6 _ _ _ _ _ _ _) h6).append (.cons (hp.2 _) .nil)))))))
  rw [hsplit] at hk ⊢
  generalize hpreg : ((upCheck c, w [] (upCheck c)) :: (a ++ (hpre ++ (.act [b!"wg", b!"setconf", c.iface] (c.opts.wgConfig ++ b!"\n"), rset) ::
      (haddrs ++ (hmtu ++ (hdns ++ [(.query [b!"wg", b!"show", c.iface, b!"allowed-ips"], q)])))))) = pre at hk hfree ⊢
  have f1 : Free isMarkSet pre := hfree _ plain_markSet (by simp [isMarkSet, linkAdd]) (by simp [isMarkSet, cmd]) (fun _ _ _ _ => rfl)
    (fun _ => by simp [isMarkSet, addrAct, cmd]) (fun _ => by simp [isMarkSet, upAct, cmd]) (fun _ _ _ _ _ _ _ => rfl)
  have f2 : Free isTableCmd pre := hfree _ plain_tableCmd (by simp [isTableCmd, linkAdd]) (by simp [isTableCmd, cmd]) (fun _ _ _ _ => rfl)
    (fun _ => by simp [isTableCmd, addrAct, cmd]) (fun _ => by simp [isTableCmd, upAct, cmd]) (fun _ _ _ _ _ _ _ => rfl)
  have g1 : MarkAfter c m pre m := markAfter_free f1
  have g2 := hk.right g1
  have hpost1 : ∀ m', MarkAfter c m' hpost m' := fun m' => markAfter_free (free_hooks plain_markSet h9)
  have hpost2 : Free isTableCmd hpost := free_hooks plain_tableCmd h9
  have hmem : ∀ {P : Call → Prop}, (∀ e ∈ pre ++ (ls.flatten ++ hpost), P e.1) → ∀ x ∈ acts (pre ++ (ls.flatten ++ hpost)), P x := by
    intro P hP x hx
    obtain ⟨⟨e, he, rfl⟩, _⟩ := mem_acts.1 hx
    exact hP e he
  have hls : ∀ e ∈ ls.flatten, isAct e.1 = true → e.2.status = 0 := fun e he => (hok e (by
    simp only [List.mem_append, List.mem_cons]; exact .inr (.inr (.inr (.inr (.inr (.inr (.inl he)))))))).2
  rcases routes_table ht h8 m g2.left hls with ⟨b1, b2⟩ | ⟨n, b1, b2, b3⟩
  · refine ⟨m, g1.append (b1.append (hpost1 m)), fun k hk => hk, hmem fun e he => ?_⟩
    have hn : isTableCmd e.1 = false := (f2.append (b2.append hpost2)) e he
    constructor
    · intro f x y h; rw [h] at hn; simp [isTableCmd, cmd] at hn
    · intro f r y h; rw [h] at hn; simp [isTableCmd, cmd] at hn
  · refine ⟨some n, g1.append (b1.append (hpost1 _)), fun k hk => by rw [b2 k hk], hmem fun e he => ?_⟩
    have hone : OneTable c (showDec n) e.1 := by
      rcases List.mem_append.1 he with he | he
      · exact oneTable_of (f2 e he)
      rcases List.mem_append.1 he with he | he
      · exact b3 e he
      · exact oneTable_of (hpost2 e he)
    exact ⟨fun f x y h => ⟨n, rfl, hone.1 f x y h⟩, fun f r y h => ⟨n, rfl, hone.2 f r y h⟩⟩

/-! ### Examples -/

/-- Longest prefixes first, otherwise in order. -/
def exSort (l : List CStr) : List CStr := l.insertionSort fun a b => prefixLen b ≤ prefixLen a

theorem exSort_longestFirst : LongestFirst exSort := by
  intro l
  have : Std.Total fun a b : CStr => prefixLen b ≤ prefixLen a := ⟨fun a b => Nat.le_total _ _⟩
  have : IsTrans CStr fun a b : CStr => prefixLen b ≤ prefixLen a := ⟨fun a b c h1 h2 => Nat.le_trans h2 h1⟩
  exact ⟨List.perm_insertionSort _ _, List.pairwise_insertionSort _ _⟩

/-- No MTU or DNS settings; `Table` as given. -/
def exRouteCfg (table : CStr) : Cfg := { exCfg with sort := exSort, opts := { wgConfig := b!"[Peer]\n", mtu := b!"1420", table := table } }

/-- Default routes for both families; tables up to 51821 are in use; `wg` shows the mark that was set. -/
def exRouteWorld : World := fun h c =>
  if c = .query [b!"wg", b!"show", b!"wg0", b!"allowed-ips"] then ⟨0, b!"KEY1\t0.0.0.0/0 ::/0\nKEY2\t10.1.2.0/24 10.1.0.0/16\n", false⟩
  else if c = .query [b!"ip", b!"-4", b!"route", b!"show", b!"table", b!"51820"] then ⟨0, b!"default dev wg1\n", false⟩
  else if c = .query [b!"ip", b!"-6", b!"route", b!"show", b!"table", b!"51821"] then ⟨0, b!"default dev wg2\n", false⟩
  else if c = .query [b!"wg", b!"show", b!"wg0", b!"fwmark"] then
    ⟨0, if h.any (fun e => e.1 == cmd [b!"wg", b!"set", b!"wg0", b!"fwmark", b!"51822"]) then b!"0xca6e\n" else b!"off\n", false⟩
  else if c = .query [b!"type", b!"-p", b!"nft"] then ⟨1, [], false⟩
  else ⟨0, [], false⟩

/-- The hypotheses of `c57_routes` are met, and what the theorem describes: the networks longest first, then the default routes of
both families through the same table, the first free one. -/
example : LongestFirst (exRouteCfg []).sort ∧ (exRouteWorld [] (upCheck (exRouteCfg []))).sig = false ∧
    captured (exRouteWorld [] (upCheck (exRouteCfg []))).out = [] ∧ (cmdUp (exRouteCfg []) exRouteWorld {}).1 = .ok () := by
  refine ⟨exSort_longestFirst, ?_⟩
  decide +kernel

example : ((acts (cmdUp (exRouteCfg []) exRouteWorld {}).2.hist).filter fun a => isRouting a || isMarkSet a) =
      [cmd [b!"ip", b!"-4", b!"route", b!"add", b!"10.1.2.0/24", b!"dev", b!"wg0"],
       cmd [b!"ip", b!"-4", b!"route", b!"add", b!"10.1.0.0/16", b!"dev", b!"wg0"],
       cmd [b!"wg", b!"set", b!"wg0", b!"fwmark", b!"51822"],
       cmd [b!"ip", b!"-4", b!"rule", b!"add", b!"not", b!"fwmark", b!"51822", b!"table", b!"51822"],
       cmd [b!"ip", b!"-4", b!"rule", b!"add", b!"table", b!"main", b!"suppress_prefixlength", b!"0"],
       cmd [b!"ip", b!"-4", b!"route", b!"add", b!"0.0.0.0/0", b!"dev", b!"wg0", b!"table", b!"51822"],
       cmd [b!"sysctl", b!"-q", b!"net.ipv4.conf.all.src_valid_mark=1"],
       .act [b!"iptables-restore", b!"-n"] (unlines (iptRules (exRouteCfg []) b!"51822" [])),
       cmd [b!"ip", b!"-6", b!"rule", b!"add", b!"not", b!"fwmark", b!"51822", b!"table", b!"51822"],
       cmd [b!"ip", b!"-6", b!"rule", b!"add", b!"table", b!"main", b!"suppress_prefixlength", b!"0"],
       cmd [b!"ip", b!"-6", b!"route", b!"add", b!"::/0", b!"dev", b!"wg0", b!"table", b!"51822"],
       .act [b!"ip6tables-restore", b!"-n"] (unlines (iptRules (exRouteCfg []) b!"51822" []))] := by decide +kernel

namespace Quick

/-- A check of `MarkKept` for histories in which only the mark `n` is set. -/
def keptCheck (c : Cfg) (n : Nat) (hex : CStr) : Bool → List Ev → Bool
  | _, [] => true
  | m, e :: h =>
    (e.1 != .query [b!"wg", b!"show", c.iface, b!"fwmark"] ||
      (if m then decide (e.2.status = 0 ∧ captured e.2.out = b!"0x" ++ hex) else decide (captured e.2.out = b!"off"))) &&
    (!isMarkSet e.1 || e.1 == cmd [b!"wg", b!"set", c.iface, b!"fwmark", showDec n]) &&
    keptCheck c n hex (m || isMarkSet e.1) h

theorem showDec_inj {a b : Nat} (h : showDec a = showDec b) : a = b := by
  have h1 := (showDec_isDecimal a).2.2
  have h2 := (showDec_isDecimal b).2.2
  rw [h1, h2, h]

theorem kept_of_check {c : Cfg} {n : Nat} {hex : CStr} (hx : IsHexNum hex n) {m : Bool} {h : List Ev} (hc : keptCheck c n hex m h = true) :
    MarkKept c (if m then some n else none) h := by
  induction h generalizing m with
  | nil => intro a b r m' he; cases a <;> simp at he
  | cons e h ih =>
    unfold keptCheck at hc
    simp only [Bool.and_eq_true, Bool.or_eq_true] at hc
    obtain ⟨⟨h1, h2⟩, h3⟩ := hc
    intro a b r m' he hm
    cases a with
    | nil =>
      cases hm
      simp only [List.nil_append, List.cons.injEq] at he
      obtain ⟨rfl, rfl⟩ := he
      have h1 := h1.resolve_left (by simp)
      cases m
      · intro hm
        exact hm.2.2 (by simpa using h1)
      · have h1 : r.status = 0 ∧ captured r.out = b!"0x" ++ hex := by simpa using h1
        exact ⟨h1.1, hex, h1.2, hx⟩
    | cons x a =>
      simp only [List.cons_append, List.cons.injEq] at he
      obtain ⟨rfl, rfl⟩ := he
      have ih := ih h3
      cases hm with
      | @set _ k r' _ _ hr hm =>
        have h2 := h2.resolve_left (by simp [isMarkSet, cmd])
        have hk : showDec k = showDec n := by simpa [cmd] using h2
        rw [showDec_inj hk] at hm
        refine ih a b r m' rfl ?_
        have : isMarkSet (cmd [b!"wg", b!"set", c.iface, b!"fwmark", showDec k]) = true := by simp [isMarkSet, cmd]
        simp only [this, Bool.or_true, if_true]
        exact hm
      | other ho hm =>
        refine ih a b r m' rfl ?_
        rcases h2 with h2 | h2
        · have : isMarkSet e.1 = false := by simpa using h2
          rw [this, Bool.or_false]; exact hm
        · exact absurd (by simpa using h2) (ho _)

end Quick

/-- The hypotheses of `c57_one_table` are met. -/
example : (cmdUp (exRouteCfg []) exRouteWorld {}).1 = .ok () ∧ MarkKept (exRouteCfg []) none (cmdUp (exRouteCfg []) exRouteWorld {}).2.hist :=
  ⟨by decide +kernel, kept_of_check (m := false) (n := 51822) (hex := b!"ca6e") (by unfold IsHexNum; decide +kernel) (by decide +kernel)⟩

/-- The same with `Table = off` and with a table of its own. -/
example : (cmdUp (exRouteCfg b!"off") exRouteWorld {}).1 = .ok () ∧
    (acts (cmdUp (exRouteCfg b!"off") exRouteWorld {}).2.hist).filter isRouting = [] ∧
    (acts (cmdUp (exRouteCfg b!"77") exRouteWorld {}).2.hist).filter isRouting =
      [cmd [b!"ip", b!"-4", b!"route", b!"add", b!"10.1.2.0/24", b!"dev", b!"wg0", b!"table", b!"77"],
       cmd [b!"ip", b!"-4", b!"route", b!"add", b!"10.1.0.0/16", b!"dev", b!"wg0", b!"table", b!"77"],
       cmd [b!"ip", b!"-4", b!"route", b!"add", b!"0.0.0.0/0", b!"dev", b!"wg0", b!"table", b!"77"],
       cmd [b!"ip", b!"-6", b!"route", b!"add", b!"::/0", b!"dev", b!"wg0", b!"table", b!"77"]] := by decide +kernel

end WG
