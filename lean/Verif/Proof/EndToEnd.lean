import Verif.Spec.EndToEnd
import Verif.Props.Netlink
import Verif.Props.NetlinkGet
import Verif.Props.Uapi
import Verif.Props.Config
import Verif.Props.Sync
import Verif.Props.Showconf
import Verif.Props.IpcList
/-! Lemmas for C62: joining commands, dispatch and protocols. -/
namespace WG.Props
open WG.Spec WG

theorem forall₂_fun {α β : Type} {f : α → Option β} {l : List α} {a b : List β} (ha : List.Forall₂ (fun m r => f m = some r) l a)
    (hb : List.Forall₂ (fun m r => f m = some r) l b) : a = b := by
  induction ha generalizing b with
  | nil => cases hb; rfl
  | cons h _ ih => cases hb with | cons h2 t => rw [ih t, Option.some.inj (h.symm.trans h2)]

theorem forall₂_named {α β : Type} {f : List UInt8 → Option (α × β)} {name : α} {l : List (List UInt8)} {a b : List β}
    (ha : List.Forall₂ (fun m r => f m = some (name, r)) l a) (hb : List.Forall₂ (fun m r => f m = some (name, r)) l b) : a = b := by
  induction ha generalizing b with
  | nil => cases hb; rfl
  | cons h _ ih => cases hb with | cons h2 t => rw [ih t, (Prod.mk.inj (Option.some.inj (h.symm.trans h2))).2]

theorem forall₂_right {α β : Type} {P : α → β → Prop} {l : List α} {r : List β} (h : List.Forall₂ P l r) {b : β} (hb : b ∈ r) : ∃ a ∈ l, P a b := by
  induction h with
  | nil => cases hb
  | cons h _ ih =>
    rcases List.mem_cons.mp hb with rfl | hb
    · exact ⟨_, by simp, h⟩
    · obtain ⟨a, h1, h2⟩ := ih hb
      exact ⟨a, by simp [h1], h2⟩

/-- An errno of opening a socket is not zero. -/
theorem interfaceFile_errno {R : Readers} {sys : System} (hs : Sane R sys) (iface : CStr) (tr tr' : List SockEv) (e : Nat)
    (h : interfaceFile sys.sock iface tr = (some e, tr')) : e ≠ 0 := by
  rw [interfaceFile] at h
  split at h
  · cases h; decide
  · simp only at h
    split at h
    · rename_i e' he
      cases h
      exact (hs.sockErrno tr).1 _ _ he
    · cases h; decide
    · split at h
      · rename_i e' he
        cases h
        rintro rfl
        exact (hs.sockErrno _).2.1 he
      · split at h
        · rename_i e' he
          split at h
          · simp only [Prod.mk.injEq, Option.some.injEq] at h
            rw [← h.1]
            cases hu : sys.sock.unlink (tr ++ [SockEv.stat (sockPath sys.sock iface)] ++ [SockEv.connect (sockPath sys.sock iface)]) (sockPath sys.sock iface) with
            | none => decide
            | some v =>
              rintro (rfl : v = 0)
              exact (hs.sockErrno _).2.2.2.1 _ hu
          · cases h
            rintro rfl
            exact (hs.sockErrno _).2.2.1 _ he
        · simp only [Prod.mk.injEq] at h
          rintro rfl
          exact (hs.sockErrno _).2.2.2.2 h.1

theorem interfaceFile_noSlash {env : SockEnv} {iface : CStr} {tr tr' : List SockEv} (h : interfaceFile env iface tr = (none, tr')) : c!"/" ∉ iface := by
  intro hc
  rw [interfaceFile, if_pos (List.contains_iff_mem.mpr hc)] at h
  cases h

/-- What `ipc_set_device` sends, whatever its result: nothing, the beginning of the requested change in netlink messages naming the interface, or the whole
change on the interface's socket. With result 0, it is the whole change. -/
theorem ipcSet_spec {R : Readers} {sys : System} (hs : Sane R sys) (tr tr' : List SockEv) (d : Device) (code : Int) (x : Sent)
    (h : ipcSet sys tr d = (.ok code, x, tr')) (hn : d.name.length ≤ 15) (hip : ∀ p ∈ d.peers, ∀ a ∈ p.allowedIPs, a.cidr.toNat ≤ addrBits a.addr)
    (hE : EndpointsRead R sys x d) :
    (code = 0 → Makes R sys d.name x (requestOf d)) ∧
    (x ≠ .nothing → ∀ s, ∃ s', Gives R sys d.name x s s' ∧ ∃ rest : List SetReq, rest.foldl applyReq s' = applyReq s (requestOf d)) := by
  rw [ipcSet] at h
  split at h
  · rename_i path tr1 hd
    simp only [Prod.mk.injEq, Res.ok.injEq] at h
    obtain ⟨-, rfl, -⟩ := h
    have hp := (c46_paths sys.sock d.name d tr).2.2.2.1 path (by rw [hd])
    obtain ⟨r, h1, h2⟩ := c23_set_effect R sys.out hs.reads d (fun p hp _ hu => hE ⟨_, _, rfl⟩ p hp hu) hip
    have hpath : path = (socketPath sys.sock.runstate d.name).take 107 := hp.2
    refine ⟨fun _ => ⟨fun s => ⟨hpath, r, h1, (h2 s).symm⟩, fun s s' hg => ?_⟩, fun _ s => ⟨_, ⟨hpath, r, h1, rfl⟩, [], h2 s⟩⟩
    obtain ⟨-, r', h3, rfl⟩ := hg
    rw [Option.some.inj (h1.symm.trans h3)] at h2
    exact h2 s
  · rename_i e tr1 hd
    simp only [Prod.mk.injEq, Res.ok.injEq] at h
    obtain ⟨hc, rfl, -⟩ := h
    refine ⟨fun h0 => ?_, fun hx => absurd rfl hx⟩
    have : e ≠ 0 := by
      rw [ipcSetDevice] at hd
      split at hd
      · split at hd
        · cases hd
        · rename_i hi
          simp only [Prod.mk.injEq, Reached.noSocket.injEq] at hd
          rw [← hd.1]
          exact interfaceFile_errno hs _ _ _ _ hi
      · cases hd
    omega
  · rename_i d' tr1 hd
    have hdd : d' = d := (c46_paths sys.sock d.name d tr).2.2.2.2.2 d' (by rw [hd])
    subst hdd
    split at h
    · rename_i e ho
      simp only [Prod.mk.injEq, Res.ok.injEq] at h
      obtain ⟨hc, rfl, -⟩ := h
      refine ⟨fun h0 => ?_, fun hx => absurd rfl hx⟩
      have : e ≠ 0 := by rintro rfl; exact hs.openErrno ho
      omega
    · simp only [Prod.mk.injEq] at h
      obtain ⟨hc, rfl, -⟩ := h
      obtain ⟨reqs, h1, h2, rest, h3⟩ := c29_fragmentation_preserves_meaning sys.nl hs.buffer.1 hs.buffer.2 sys.portid sys.seq sys.send hs.sendErrno sys.replies d' hn hip
        sys.fuel _ _ rfl
      refine ⟨fun h0 => ?_, fun _ s => ⟨_, ⟨reqs, h1, rfl⟩, rest, h3 s⟩⟩
      have h2 := h2 (by rw [hc, h0])
      refine ⟨fun s => ⟨reqs, h1, (h2 s).symm⟩, fun s s' hg => ?_⟩
      obtain ⟨reqs', h4, rfl⟩ := hg
      rw [forall₂_named h4 h1]
      exact h2 s

/-! ### Prefix lengths written are in range -/

theorem isAllowedIP_range {pton4 : List UInt8 → Option IP4} {pton6 : List UInt8 → Option IP6} {e : List UInt8} {a : AllowedIP}
    (h : IsAllowedIP pton4 pton6 e a) : a.cidr.toNat ≤ addrBits a.addr := by
  obtain ⟨ip, -, -, ⟨-, h⟩ | ⟨m, n, -, -, h1, h2⟩⟩ := h <;> omega

theorem isAllowedIPs_range {pton4 : List UInt8 → Option IP4} {pton6 : List UInt8 → Option IP6} {v : List UInt8} {as : List AllowedIP}
    (h : IsAllowedIPs pton4 pton6 v as) : ∀ a ∈ as, a.cidr.toNat ≤ addrBits a.addr := by
  intro a ha
  rcases h with ⟨-, rfl⟩ | ⟨-, es, -, -, -, h⟩
  · cases ha
  · obtain ⟨e, -, he⟩ := forall₂_right h ha
    exact isAllowedIP_range he

theorem fileGives_range {env : Env} {path : CStr} {secs : List Section} (append : Bool) (h : FileGives (docNow env) env path secs) :
    ∀ p ∈ (fileMeaning append secs).peers, ∀ a ∈ p.allowedIPs, a.cidr.toNat ≤ addrBits a.addr := by
  intro p hp a ha
  obtain ⟨f, -, ⟨chunks, -, hc⟩, -⟩ := h
  simp only [fileMeaning, peerSections, List.mem_map, List.mem_filterMap] at hp
  obtain ⟨l, ⟨sec, hsec, hl⟩, rfl⟩ := hp
  obtain ⟨c, -, hcs⟩ := forall₂_right hc hsec
  cases hcs with
  | interface => cases hl
  | peer _ hb =>
    cases Option.some.inj hl
    simp only [peerMeaning, List.mem_flatMap] at ha
    obtain ⟨x, hx, ha⟩ := ha
    obtain ⟨line, -, hline⟩ := forall₂_right hb hx
    cases hline with
    | allowedIPs _ hv => exact isAllowedIPs_range hv a ha
    | _ => cases ha

theorem cmdSays_range {env : Env} {kf : List UInt8 → Key → Prop} {argv : List CStr} {devs : List DevSetting} {groups : List (Key × List PeerArg)}
    (h : CmdSays (docNow env) kf argv devs groups) : ∀ p ∈ (cmdMeaning devs groups).peers, ∀ a ∈ p.allowedIPs, a.cidr.toNat ≤ addrBits a.addr := by
  intro p hp a ha
  obtain ⟨chunks, -, hc⟩ := h
  simp only [cmdMeaning, List.mem_map] at hp
  obtain ⟨g, hg, rfl⟩ := hp
  simp only [groupMeaning, List.mem_flatten, List.mem_filterMap] at ha
  obtain ⟨l, ⟨arg, harg, hl⟩, ha⟩ := ha
  have : CmdItem.arg arg ∈ cmdItems devs groups := by
    simp only [cmdItems, List.mem_append, List.mem_flatMap]
    exact .inr ⟨g, hg, by simp [harg]⟩
  obtain ⟨c, -, hci⟩ := forall₂_right hc this
  cases hci with
  | allowedIPs hv => cases Option.some.inj hl; exact isAllowedIPs_range hv a ha
  | _ => cases hl

end WG.Props
