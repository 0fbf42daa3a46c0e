import Verif.Proof.QuickTrap
/-!
C50 `wg-quick up`: failure leaves no interface behind.
-/
namespace WG
open Spec.Quick Quick

/-! ### The acts of a removal -/

namespace Quick

theorem acts_query (argv : List CStr) (r : Reply) (l : List Ev) : acts ((.query argv, r) :: l) = acts l := rfl

theorem nft_acts {c : Cfg} {l : List Ev} (h : NftRemoval c l) : ∀ a ∈ acts l, IsUndo c a := by
  rcases h with ⟨t, _, rfl⟩ | ⟨t, r, _, _, _, _, rfl⟩ | ⟨t, r, d, _, _, _, _, rfl⟩
  · simp [acts, isAct]
  · simp [acts, isAct]
  · intro a ha
    rw [acts_query, acts_query, acts_cons] at ha
    simp only [isAct, if_true, acts_nil, List.append_nil, List.mem_singleton] at ha
    exact .inr (.inl ⟨_, ha⟩)

theorem ipt_acts {c : Cfg} {i : CStr} (hi : i = b!"iptables" ∨ i = b!"ip6tables") {l : List Ev} (h : IptRemoval c i l) : ∀ a ∈ acts l, IsUndo c a := by
  rcases h with ⟨r, _, _, _, rfl⟩ | ⟨r, _, d, us, _, _, _, rfl⟩
  · simp [acts, isAct]
  · intro a ha
    rw [acts_query, acts_cons] at ha
    simp only [isAct, if_true, acts_nil, List.append_nil, List.mem_singleton] at ha
    rcases hi with rfl | rfl
    · exact .inr (.inr (.inl ⟨_, ha⟩))
    · exact .inr (.inr (.inr (.inl ⟨_, ha⟩)))

theorem fw_acts {c : Cfg} {l : List Ev} (h : FwRemoval c l) : ∀ a ∈ acts l, IsUndo c a := by
  obtain ⟨l1, t, l2, rfl, h1, h2⟩ := h
  intro a ha
  rw [acts_append, acts_query, List.mem_append] at ha
  rcases ha with ha | ha
  · exact nft_acts h1 a ha
  · split at h2
    · obtain ⟨l4, l6, h4, h6, rfl⟩ := h2
      rw [acts_append, List.mem_append] at ha
      rcases ha with ha | ha
      · exact ipt_acts (.inl rfl) h4 a ha
      · exact ipt_acts (.inr rfl) h6 a ha
    · subst h2; simp at ha

theorem rule_acts {c : Cfg} {fam pat : CStr} {args : List CStr} {l : List Ev} (h : RuleRemoval fam pat args l)
    (hu : IsUndo c (cmd ([b!"ip", fam, b!"rule", b!"delete", b!"table"] ++ args))) : ∀ a ∈ acts l, IsUndo c a := by
  induction h with
  | done _ => simp [acts, isAct]
  | again _ _ ih =>
    intro a ha
    rw [acts_query, acts_cons] at ha
    simp only [isAct, cmd, if_true, List.mem_append, List.mem_singleton] at ha
    rcases ha with rfl | ha
    · exact hu
    · exact ih a ha

theorem default_acts {c : Cfg} {l : List Ev} (h : DefaultRemoval c l) : ∀ a ∈ acts l, IsUndo c a := by
  unfold DefaultRemoval at h
  split at h
  · obtain ⟨m, l', rfl, h⟩ := h
    rw [acts_query]
    rcases h with ⟨_, rfl⟩ | ⟨_, h⟩
    · simp
    · obtain ⟨q, l'', rfl, h⟩ := h
      rw [acts_query]
      rcases h with ⟨_, rfl⟩ | ⟨_, t, _, l1, l2, l3, l4, rfl, h1, h2, h3, h4⟩
      · simp
      · intro a ha
        simp only [acts_append, List.mem_append] at ha
        rcases ha with ha | ha | ha | ha
        · exact rule_acts h1 (.inr (.inr (.inr (.inr (.inl ⟨_, _, rfl⟩))))) a ha
        · exact rule_acts h2 (.inr (.inr (.inr (.inr (.inr ⟨_, rfl⟩))))) a ha
        · exact rule_acts h3 (.inr (.inr (.inr (.inr (.inl ⟨_, _, rfl⟩))))) a ha
        · exact rule_acts h4 (.inr (.inr (.inr (.inr (.inr ⟨_, rfl⟩))))) a ha
  · subst h; simp

theorem prefix_acts {pre : CStr} {l : List Ev} (h : PrefixShown pre l) : acts l = [] := by
  rcases h with ⟨t, _, _, rfl⟩ | ⟨t, r, _, _, _, rfl, _⟩ <;> rfl

theorem dns_acts {c : Cfg} {l : List Ev} (h : DnsRemoval c l) : ∀ a ∈ acts l, IsUndo c a := by
  unfold DnsRemoval at h
  split at h
  · subst h; simp
  · obtain ⟨pre, l', r, h, rfl⟩ := h
    rw [acts_append, prefix_acts h]
    intro a ha
    exact .inl ⟨pre, List.mem_singleton.1 ha⟩

/-- The commands of a removal: undoing, then deleting the interface. -/
theorem removal_acts {c : Cfg} {d f : Bool} {l : List Ev} (h : Removal c d f l) :
    ∃ us, (∀ u ∈ us, IsUndo c u) ∧ acts l = us ++ [deleteAct c] := by
  obtain ⟨l1, l2, l3, r, rfl, h1, h2, h3⟩ := h
  refine ⟨acts l1 ++ (acts l2 ++ acts l3), ?_, ?_⟩
  · intro a ha
    simp only [List.mem_append] at ha
    rcases ha with ha | ha | ha
    · cases d
      · rw [if_neg (by simp)] at h1; subst h1; simp at ha
      · exact dns_acts h1 a ha
    · cases f
      · rw [if_neg (by simp)] at h2; subst h2; simp at ha
      · exact fw_acts h2 a ha
    · exact default_acts h3 a ha
  · simp only [acts_append, List.append_assoc]
    rfl

theorem cleaned_acts {c : Cfg} {d f : Bool} {l : List Ev} (h : CleanedUp c d f l) :
    ∀ a ∈ acts l, IsUndo c a ∨ a = deleteAct c := by
  have hx : ∀ full, Removal c d f full → ∀ a ∈ acts full, IsUndo c a ∨ a = deleteAct c := by
    intro full hf a ha
    obtain ⟨us, h1, h2⟩ := removal_acts hf
    rw [h2, List.mem_append, List.mem_singleton] at ha
    exact ha.imp (h1 a) id
  rcases h with ⟨h, _⟩ | ⟨pre, a, r, full, rfl, _, _, _, hf, hp⟩
  · exact hx _ h
  · intro x hxm
    exact hx _ hf x (hp.subset hxm)

theorem removal_last {c : Cfg} {d f : Bool} {l : List Ev} (h : Removal c d f l) : ∃ h' r, l = h' ++ [(deleteAct c, r)] := by
  obtain ⟨l1, l2, l3, r, rfl, _⟩ := h
  exact ⟨l1 ++ (l2 ++ l3), r, by simp⟩

theorem cleaned_last {c : Cfg} {d f : Bool} {l : List Ev} (h : CleanedUp c d f l) :
    ∃ h' e, l = h' ++ [e] ∧ (e.1 = deleteAct c ∨ (IsUndo c e.1 ∧ e.2.status ≠ 0)) := by
  have ha := cleaned_acts h
  rcases h with ⟨h, _⟩ | ⟨pre, a, r, full, rfl, h1, h2, _⟩
  · obtain ⟨h', r, rfl⟩ := removal_last h
    exact ⟨h', _, rfl, .inl rfl⟩
  · refine ⟨pre, (a, r), rfl, ?_⟩
    rcases ha a (by rw [acts_append, acts_cons]; simp [h1]) with h | h
    · exact .inr ⟨h, h2⟩
    · exact .inl h

theorem cleaned_dns {c : Cfg} {f : Bool} {l : List Ev} (hd : c.opts.dns ≠ []) (h : CleanedUp c true f l) :
    ∃ e ∈ l, ∃ pre, e.1 = cmd [b!"resolvconf", b!"-d", pre ++ c.iface, b!"-f"] := by
  have hfirst : ∀ full, Removal c true f full → ∃ pre t, acts full = cmd [b!"resolvconf", b!"-d", pre ++ c.iface, b!"-f"] :: t := by
    rintro full ⟨l1, l2, l3, r, rfl, h1, _⟩
    rw [if_pos rfl] at h1
    unfold DnsRemoval at h1
    rw [if_neg hd] at h1
    obtain ⟨pre, l', r', h1, rfl⟩ := h1
    exact ⟨pre, _, by rw [acts_append, acts_append, prefix_acts h1]; rfl⟩
  have hmem : ∀ a ∈ acts l, ∃ e ∈ l, e.1 = a := by
    intro a ha
    unfold acts at ha
    obtain ⟨e, he, rfl⟩ := List.mem_map.1 (List.mem_filter.1 ha).1
    exact ⟨e, he, rfl⟩
  rcases h with ⟨h, _⟩ | ⟨pre, a, r, full, rfl, h1, _, _, hf, hp⟩
  · obtain ⟨p, t, ht⟩ := hfirst _ h
    obtain ⟨e, he, h⟩ := hmem _ (by rw [ht]; exact List.mem_cons_self ..)
    exact ⟨e, he, p, h⟩
  · obtain ⟨p, t, ht⟩ := hfirst _ hf
    have hne : acts (pre ++ [(a, r)]) ≠ [] := by rw [acts_append, acts_cons]; simp [h1]
    obtain ⟨x, xs, hx⟩ := List.exists_cons_of_ne_nil hne
    rw [hx, ht] at hp
    have := (List.cons_prefix_cons.1 hp).1
    obtain ⟨e, he, h⟩ := hmem x (by rw [hx]; exact List.mem_cons_self ..)
    exact ⟨e, he, p, by rw [h, this]⟩

theorem split_after {α : Type} {h1 h2 a b : List α} {e : α} (h : h1 ++ e :: h2 = a ++ b) (he : e ∉ b) : b <:+ h2 := by
  rcases List.append_eq_append_iff.1 h with ⟨t, rfl, ht⟩ | ⟨t, rfl, ht⟩
  · cases t with
    | nil =>
      simp only [List.nil_append] at ht
      exact absurd (by rw [← ht]; exact List.mem_cons_self ..) he
    | cons x t =>
      simp only [List.cons_append, List.cons.injEq] at ht
      exact ⟨t, ht.2.symm⟩
  · exact absurd (by rw [ht]; exact List.mem_append_right _ (List.mem_cons_self ..)) he

/-- `up`, past its check. -/
theorem cmdUp_eq (c : Cfg) (w : World) (h1 : (w [] (linkShow c)).sig = false) (h2 : captured (w [] (linkShow c)).out = []) :
    cmdUp c w {} = guarded (delIf c) (upBody c) w { hist := [(linkShow c, w [] (linkShow c))] } := by
  unfold cmdUp
  rw [bind_call]
  rw [← chomp_eq] at h2
  rw [if_neg (by simp [h1]), if_neg (by simpa using h2)]
  rfl

theorem flagged_start (c : Cfg) (r : Reply) : Flagged c { hist := [(linkShow c, r)] } := by
  constructor
  · refine iff_of_false ?_ (by simp)
    rintro ⟨e, he, ⟨_, _, h⟩, _⟩
    rw [List.mem_singleton] at he; subst he
    simp [linkShow] at h
  · refine iff_of_false ?_ (by simp)
    rintro ⟨e, he, ⟨_, _, h, _⟩, _⟩
    rw [List.mem_singleton] at he; subst he
    simp [linkShow] at h

end Quick

/-! ### C50 -/

/-- The first thing `up` does: looking for an interface of that name. -/
abbrev upCheck (c : Cfg) : Call := .query [b!"ip", b!"link", b!"show", b!"dev", c.iface]

/-- **C50** If there already is an interface of that name, `up` exits with status 1 having done nothing but look. -/
theorem c50_existing (c : Cfg) (w : World) (h1 : (w [] (upCheck c)).sig = false) (h2 : captured (w [] (upCheck c)).out ≠ []) :
    (cmdUp c w {}).1 = .exit 1 ∧ (cmdUp c w {}).2.hist = [(upCheck c, w [] (upCheck c))] := by
  unfold cmdUp
  rw [bind_call]
  have h1' : ¬ (w ({} : St).hist (linkShow c)).sig = true := by simpa [linkShow] using h1
  have h2' : chomp (w ({} : St).hist (linkShow c)).out ≠ [] := h2
  rw [if_neg h1', if_pos h2']
  exact ⟨rfl, rfl⟩

/-- **C50** `up` ends with success only if the interface was added, all further steps were done in order, every command of them
succeeded, and no signal came. -/
theorem c50_success (c : Cfg) (w : World) (u : Unit) (h1 : (w [] (upCheck c)).sig = false) (h2 : captured (w [] (upCheck c)).out = [])
    (ho : (cmdUp c w {}).1 = .ok u) :
    ∃ a b, (cmdUp c w {}).2.hist = (upCheck c, w [] (upCheck c)) :: (a ++ b) ∧ Added c a ∧ RestSteps c b ∧
      ∀ e ∈ b, e.2.sig = false ∧ (isAct e.1 = true → e.2.status = 0) := by
  rw [cmdUp_eq c w h1 h2] at ho ⊢
  have h := up_run c w _ (flagged_start c (w [] (linkShow c)))
  rw [ho] at h
  exact h

/-- **C50** If `up` stops before its end, what it had done is a beginning of its steps (`hb`), and then the cleanup is run (twice
after a signal): all of it, or up to the first command of it that fails. DNS and firewall are included if and only if this run
had successfully set them up. The exit status is 0 only after a signal or a failed `ip link add`. -/
theorem c50_cleanup (c : Cfg) (w : World) (n : Nat) (h1 : (w [] (upCheck c)).sig = false) (h2 : captured (w [] (upCheck c)).out = [])
    (ho : (cmdUp c w {}).1 = .exit n) :
    ∃ hb l1 l2 dns fw, (cmdUp c w {}).2.hist = (upCheck c, w [] (upCheck c)) :: (hb ++ (l1 ++ l2)) ∧
      (∃ full, UpSteps c full ∧ acts hb <+: acts full) ∧
      (l1 = [] ∨ CleanedUp c dns fw l1) ∧ CleanedUp c dns fw l2 ∧
      (dns = true ↔ ∃ e ∈ hb, IsDnsAdd c e.1 ∧ Succeeded e) ∧ (fw = true ↔ ∃ e ∈ hb, IsFwAdd e.1 ∧ Succeeded e) ∧
      (n = 0 → ∃ e ∈ hb, e.2.sig = true ∨
        (e.1 = cmd [b!"ip", b!"link", b!"add", c.iface, b!"type", b!"wireguard"] ∧ e.2.status ≠ 0)) := by
  rw [cmdUp_eq c w h1 h2] at ho ⊢
  have h := up_run c w _ (flagged_start c (w [] (linkShow c)))
  rw [ho] at h
  obtain ⟨hb, l1, l2, dns, fw, x1, x2, x3, x4, x5, x6, x7⟩ := h
  have hd : ¬ (IsDnsAdd c (linkShow c)) := by rintro ⟨_, _, h⟩; simp [linkShow] at h
  have hf : ¬ (IsFwAdd (linkShow c)) := by rintro ⟨_, _, h, _⟩; simp [linkShow] at h
  refine ⟨hb, l1, l2, dns, fw, x1, x2, x3, x4, ?_, ?_, x7⟩
  · rw [← x5]; simp [hd]
  · rw [← x6]; simp [hf]

/-- **C50** `up` never ends by a signal without its cleanup. -/
theorem c50_no_signal_end (c : Cfg) (w : World) (n : Nat) (h1 : (w [] (upCheck c)).sig = false) : (cmdUp c w {}).1 ≠ .signal n := by
  intro ho
  by_cases h2 : captured (w [] (upCheck c)).out = []
  · rw [cmdUp_eq c w h1 h2] at ho
    have h := up_run c w _ (flagged_start c (w [] (linkShow c)))
    rw [ho] at h
    exact h
  · rw [(c50_existing c w h1 h2).1] at ho
    cases ho

/-- **C50** Whenever `up` stops before its end, the last command is the deletion of the interface, unless another command of the
cleanup failed. -/
theorem c50_interface_deleted (c : Cfg) (w : World) (n : Nat) (h1 : (w [] (upCheck c)).sig = false)
    (h2 : captured (w [] (upCheck c)).out = []) (ho : (cmdUp c w {}).1 = .exit n) :
    ∃ h e, (cmdUp c w {}).2.hist = h ++ [e] ∧ (e.1 = deleteAct c ∨ (IsUndo c e.1 ∧ e.2.status ≠ 0)) := by
  obtain ⟨hb, l1, l2, dns, fw, h, _, _, hc, _⟩ := c50_cleanup c w n h1 h2 ho
  obtain ⟨l, e, rfl, he⟩ := cleaned_last hc
  exact ⟨(upCheck c, w [] (upCheck c)) :: (hb ++ (l1 ++ l)), e, by rw [h]; simp, he⟩

/-- **C50** If resolvconf was told about the interface and `up` then stops before its end, resolvconf is told to forget it. -/
theorem c50_dns_removed (c : Cfg) (w : World) (n : Nat) (h1 : (w [] (upCheck c)).sig = false)
    (h2 : captured (w [] (upCheck c)).out = []) (ho : (cmdUp c w {}).1 = .exit n) (hd : c.opts.dns ≠ [])
    {a b : List Ev} {e : Ev} (hh : (cmdUp c w {}).2.hist = a ++ e :: b) (he : IsDnsAdd c e.1) (hs : Succeeded e) :
    ∃ e' ∈ b, ∃ pre, e'.1 = cmd [b!"resolvconf", b!"-d", pre ++ c.iface, b!"-f"] := by
  obtain ⟨hb, l1, l2, dns, fw, h, _, hc1, hc, hf, _⟩ := c50_cleanup c w n h1 h2 ho
  have hno : ∀ l, CleanedUp c dns fw l → e ∉ l := by
    intro l hl hm
    have : e.1 ∈ acts l := List.mem_filter.2 ⟨List.mem_map_of_mem hm, by obtain ⟨_, _, h⟩ := he; rw [h]; rfl⟩
    obtain ⟨p, t, he⟩ := he
    rw [he] at this
    rcases cleaned_acts hl _ this with h | h
    · unfold IsUndo cmd at h
      rcases h with ⟨_, h⟩ | ⟨_, h⟩ | ⟨_, h⟩ | ⟨_, h⟩ | ⟨_, _, h⟩ | ⟨_, h⟩ <;> simp at h
    · simp [deleteAct, cmd] at h
  have hn1 : e ∉ l1 := by
    rcases hc1 with rfl | hc1
    · simp
    · exact hno _ hc1
  rw [h, ← List.append_assoc, ← List.cons_append] at hh
  have hs2 : l2 <:+ b := split_after hh.symm (hno _ hc)
  have hmem : e ∈ hb := by
    have : e ∈ (upCheck c, w [] (upCheck c)) :: (hb ++ l1) ++ l2 := by rw [hh]; simp
    simp only [List.cons_append, List.mem_cons, List.mem_append] at this
    rcases this with rfl | (h | h) | h
    · obtain ⟨_, _, he⟩ := he; simp at he
    · exact h
    · exact absurd h hn1
    · exact absurd h (hno _ hc)
  have hdns := hf.2 ⟨e, hmem, he, hs⟩
  subst hdns
  obtain ⟨e', he', hp⟩ := cleaned_dns hd hc
  exact ⟨e', hs2.subset he', hp⟩

/-! Concrete runs. -/

/-- `Address = 10.0.0.2/24`, `DNS = 10.0.0.1, corp`, `PostUp = ping %i`, and one peer. -/
def exOpts : Opts := { wgConfig := b!"[Peer]\n", addresses := [b!"10.0.0.2/24"], dns := [b!"10.0.0.1"], dnsSearch := [b!"corp"], postUp := [b!"ping %i"] }

def exCfg : Cfg :=
  { iface := b!"wg0", file := b!"/etc/wireguard/wg0.conf", opts := exOpts, userspace := b!"wireguard-go", sort := id, plusMatch := fun _ => none,
    patsub := true, patience := 5 }

/-- Everything works; `wg show wg0 allowed-ips` shows a default route and a subnet; there is no nft, and files do not exist. -/
def exWorld : World := fun _ c =>
  if c = .query [b!"wg", b!"show", b!"wg0", b!"allowed-ips"] then ⟨0, b!"KEY\t10.1.0.0/16 0.0.0.0/0\n", false⟩
  else if c = .query [b!"type", b!"-p", b!"nft"] then ⟨1, [], false⟩
  else if c = .query [b!"test", b!"-f", b!"/etc/resolvconf/interface-order"] then ⟨1, [], false⟩
  else ⟨0, [], false⟩

/-- `exWorld`, except that the call `c` is answered with `r`. -/
def exBut (c : Call) (r : Reply) : World := fun h d => if d = c then r else exWorld h d

/-- The hypotheses of `c50_success` are met: everything in order. -/
example : (exWorld [] (upCheck exCfg)).sig = false ∧ captured (exWorld [] (upCheck exCfg)).out = [] ∧ (cmdUp exCfg exWorld {}).1 = .ok () ∧
    acts (cmdUp exCfg exWorld {}).2.hist =
      [cmd [b!"ip", b!"link", b!"add", b!"wg0", b!"type", b!"wireguard"],
       .act [b!"wg", b!"setconf", b!"wg0"] b!"[Peer]\n\n",
       cmd [b!"ip", b!"-4", b!"address", b!"add", b!"10.0.0.2/24", b!"dev", b!"wg0"],
       cmd [b!"ip", b!"link", b!"set", b!"mtu", b!"1420", b!"up", b!"dev", b!"wg0"],
       .act [b!"resolvconf", b!"-a", b!"wg0", b!"-m", b!"0", b!"-x"] b!"nameserver 10.0.0.1\nsearch corp\n",
       cmd [b!"ip", b!"-4", b!"route", b!"add", b!"10.1.0.0/16", b!"dev", b!"wg0"],
       cmd [b!"wg", b!"set", b!"wg0", b!"fwmark", b!"51820"],
       cmd [b!"ip", b!"-4", b!"rule", b!"add", b!"not", b!"fwmark", b!"51820", b!"table", b!"51820"],
       cmd [b!"ip", b!"-4", b!"rule", b!"add", b!"table", b!"main", b!"suppress_prefixlength", b!"0"],
       cmd [b!"ip", b!"-4", b!"route", b!"add", b!"0.0.0.0/0", b!"dev", b!"wg0", b!"table", b!"51820"],
       cmd [b!"sysctl", b!"-q", b!"net.ipv4.conf.all.src_valid_mark=1"],
       .act [b!"iptables-restore", b!"-n"] (restoreText exCfg b!"51820" []),
       .hook b!"ping wg0"] := by decide +kernel

/-- The hypotheses of `c50_cleanup` are met: the hook fails, and DNS and interface are removed; the status is that of the hook. -/
example : (cmdUp exCfg (exBut (.hook b!"ping wg0") ⟨7, [], false⟩) {}).1 = .exit 7 ∧
    (acts (cmdUp exCfg (exBut (.hook b!"ping wg0") ⟨7, [], false⟩) {}).2.hist).drop 12 =
      [.hook b!"ping wg0", cmd [b!"resolvconf", b!"-d", b!"wg0", b!"-f"], cmd [b!"ip", b!"link", b!"delete", b!"dev", b!"wg0"]] := by
  decide +kernel

/-- After a signal the cleanup runs twice. -/
example : (cmdUp exCfg (exBut (.hook b!"ping wg0") ⟨0, [], true⟩) {}).1 = .exit 0 ∧
    (acts (cmdUp exCfg (exBut (.hook b!"ping wg0") ⟨0, [], true⟩) {}).2.hist).drop 12 =
      [.hook b!"ping wg0", cmd [b!"resolvconf", b!"-d", b!"wg0", b!"-f"], cmd [b!"ip", b!"link", b!"delete", b!"dev", b!"wg0"],
       cmd [b!"resolvconf", b!"-d", b!"wg0", b!"-f"], cmd [b!"ip", b!"link", b!"delete", b!"dev", b!"wg0"]] := by
  decide +kernel

/-- **C50** The exception in `c50_interface_deleted` is real: if `up` fails and then `resolvconf -d` fails too, the interface is
left behind. -/
theorem c50_undo_failure_leaves_interface :
    ∃ c w, (w [] (upCheck c)).sig = false ∧ captured (w [] (upCheck c)).out = [] ∧ (cmdUp c w {}).1 = .exit 1 ∧
      deleteAct c ∉ acts (cmdUp c w {}).2.hist ∧
      ∃ e ∈ (cmdUp c w {}).2.hist, e.1 = cmd [b!"ip", b!"link", b!"add", c.iface, b!"type", b!"wireguard"] ∧ Succeeded e := by
  refine ⟨exCfg, fun h d => if d = cmd [b!"resolvconf", b!"-d", b!"wg0", b!"-f"] then ⟨1, [], false⟩ else
    exBut (.hook b!"ping wg0") ⟨7, [], false⟩ h d, ?_⟩
  refine ⟨by decide +kernel, by decide +kernel, by decide +kernel, by decide +kernel, (linkAdd exCfg, ⟨0, [], false⟩), by decide +kernel, rfl, rfl, rfl⟩

/-- **C50** A signal that arrives while `resolvconf -a` is running (and succeeds) leaves the DNS servers set: the flag is only set
after the command. This is why `Succeeded` includes that no signal came. -/
theorem c50_signal_leaves_dns :
    ∃ c w, (w [] (upCheck c)).sig = false ∧ captured (w [] (upCheck c)).out = [] ∧ (cmdUp c w {}).1 = .exit 0 ∧
      (∃ e ∈ (cmdUp c w {}).2.hist, IsDnsAdd c e.1 ∧ e.2.status = 0) ∧
      ∀ pre, cmd [b!"resolvconf", b!"-d", pre, b!"-f"] ∉ acts (cmdUp c w {}).2.hist := by
  refine ⟨exCfg, exBut (dnsAdd exCfg []) ⟨0, [], true⟩, by decide +kernel, by decide +kernel, by decide +kernel,
    ⟨(dnsAdd exCfg [], ⟨0, [], true⟩), by decide +kernel, ⟨[], _, rfl⟩, rfl⟩, ?_⟩
  intro pre
  have : ∀ a ∈ acts (cmdUp exCfg (exBut (dnsAdd exCfg []) ⟨0, [], true⟩) {}).2.hist,
      (match a with | .act (x :: y :: _) _ => !(x == b!"resolvconf" && y == b!"-d") | _ => true) = true := by decide +kernel
  intro h
  have := this _ h
  simp [cmd] at this

/-- **C50** If another program creates an interface of that name between the check and `ip link add`, `up` deletes that
interface and exits with status 0. -/
theorem c50_race_deletes_foreign :
    ∃ c w, (w [] (upCheck c)).sig = false ∧ captured (w [] (upCheck c)).out = [] ∧ (cmdUp c w {}).1 = .exit 0 ∧
      acts (cmdUp c w {}).2.hist = [cmd [b!"ip", b!"link", b!"add", c.iface, b!"type", b!"wireguard"], deleteAct c] ∧
      ∃ e ∈ (cmdUp c w {}).2.hist, e.1 = cmd [b!"ip", b!"link", b!"add", c.iface, b!"type", b!"wireguard"] ∧ e.2.status = 2 := by
  refine ⟨exCfg, exBut (linkAdd exCfg) ⟨2, [], false⟩, by decide +kernel, by decide +kernel, by decide +kernel, by decide +kernel,
    (linkAdd exCfg, ⟨2, [], false⟩), by decide +kernel, rfl, rfl⟩

end WG
