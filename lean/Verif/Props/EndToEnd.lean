import Verif.Proof.EndToEnd
/-!
C62: what commands do, from the words and files they are given to the state of the interface, through the kernel's protocol and the userspace one alike.
-/
namespace WG.Props
open WG.Spec WG

/-- C62. `wg setconf`/`addconf` with exit status 0: the file says something by the documented syntax, one set operation was carried out, and what left the
process is a way to make exactly the change the file asks for, to the named interface: whatever the kernel or the userspace implementation answered, however
many messages it took, and in whatever state the interface was. -/
theorem c62_setconf {R : Readers} {sys : System} (hsys : Sane R sys) (env : Env) (hM : 0xffffffff < env.ulongMax) (sort : List PubkeyOrigin → List PubkeyOrigin)
    (ipc : Ipc) (cmd iface path : CStr) (hc : cmd = b!"setconf" ∨ cmd = b!"addconf") (tr : List SockEv) (sent : List Sent)
    (hrun : Carried sys ipc tr (setconfMain env sort ipc [cmd, iface, path]).calls sent) (h0 : (setconfMain env sort ipc [cmd, iface, path]).end_ = .ok 0) :
    ∃ secs x, FileGives (docNow env) env path secs ∧ sent = [x] ∧
      (EndpointsRead R sys x (fileMeaning (cmd = b!"addconf") secs) → Makes R sys (iface.take 15) x (requestOf (fileMeaning (cmd = b!"addconf") secs))) := by
  rcases c11_all_or_nothing env hM sort ipc cmd iface path hc with ⟨secs, d, h1, h2, h3⟩ | ⟨-, h, -⟩
  · rw [h3] at hrun h0
    have hz : ipc.set d = 0 := by
      by_contra h
      simp [h] at h0
    cases hrun with
    | set hx hrest =>
      cases hrest
      rename_i tr' x
      refine ⟨secs, x, h1, rfl, fun hE => ?_⟩
      have hd : requestOf d = requestOf (fileMeaning (cmd = b!"addconf") secs) := by rw [h2]; rfl
      have hn : d.name = iface.take 15 := by rw [h2]
      have hps : d.peers = (fileMeaning (cmd = b!"addconf") secs).peers := by rw [h2]
      rw [← hd, ← hn]
      exact (ipcSet_spec hsys _ _ d _ x hx (by rw [hn, List.length_take]; omega) (by rw [hps]; exact fileGives_range _ h1)
        (by rw [EndpointsRead, hps]; exact hE)).1 hz
  · exact absurd h0 h

/-- C62. The same for `wg set`: the words after the interface say the change. -/
theorem c62_set {R : Readers} {sys : System} (hsys : Sane R sys) (env : Env) (hM : 0xffffffff < env.ulongMax)
    (ipc : Ipc) (iface a : CStr) (rest : List CStr) (tr : List SockEv) (sent : List Sent)
    (hrun : Carried sys ipc tr (setMain env ipc (b!"set" :: iface :: a :: rest)).calls sent) (h0 : (setMain env ipc (b!"set" :: iface :: a :: rest)).end_ = .ok 0) :
    ∃ devs groups x, CmdSays (docNow env) (docKeyfile env) (a :: rest) devs groups ∧ sent = [x] ∧
      (EndpointsRead R sys x (cmdMeaning devs groups) → Makes R sys (iface.take 15) x (requestOf (cmdMeaning devs groups))) := by
  rcases c15_set_all_or_nothing env hM ipc b!"set" iface a rest with ⟨devs, groups, d, h1, h2, h3⟩ | ⟨-, h⟩
  · rw [h3] at hrun h0
    have hz : ipc.set d = 0 := by
      by_contra h
      simp [h] at h0
    cases hrun with
    | set hx hrest =>
      cases hrest
      rename_i tr' x
      refine ⟨devs, groups, x, h1, rfl, fun hE => ?_⟩
      have hd : requestOf d = requestOf (cmdMeaning devs groups) := by rw [h2]; rfl
      have hn : d.name = iface.take 15 := by rw [h2]
      have hps : d.peers = (cmdMeaning devs groups).peers := by rw [h2]
      rw [← hd, ← hn]
      exact (ipcSet_spec hsys _ _ d _ x hx (by rw [hn, List.length_take]; omega) (by rw [hps]; exact cmdSays_range h1)
        (by rw [EndpointsRead, hps]; exact hE)).1 hz
  · rw [h0] at h
    rcases h with h | h <;> cases h

/-- C62. Over a socket, an error is reported as the implementation says it: setting returns the last `errno` of its reply, and if the reply is not one, the error of reading it, or -EPROTO (-71) if
there was none. -/
theorem c62_socket_code (sys : System) (tr : List SockEv) (d : Device) (path : CStr) (hp : (ipcSetDevice sys.sock d tr).1 = .socket path)
    (err : Nat) (reply : List UInt8) (ha : sys.answer (emitSet sys.out d) = (err, reply)) :
    (∀ kls kvs rest n, (fileLines reply).map beforeNul = kls ++ [10] :: rest → List.Forall₂ (fun l (kv : List UInt8 × List UInt8) => IsKV l kv.1 kv.2) kls kvs →
      LastErrno (-2147483648) 2147483647 kvs n → (ipcSet sys tr d).1 = .ok n) ∧
    ((¬ ∃ kls kvs rest, (fileLines reply).map beforeNul = kls ++ [10] :: rest ∧ List.Forall₂ (fun l (kv : List UInt8 × List UInt8) => IsKV l kv.1 kv.2) kls kvs ∧
      ∀ kv ∈ kvs, kv.1 = b!"errno" → ∃ n, IsIntNumeral kv.2 n ∧ -2147483648 ≤ n ∧ n ≤ 2147483647) →
      (ipcSet sys tr d).1 = .ok (if err = 0 then -71 else -(err : Int))) := by
  have e : (ipcSet sys tr d).1 = .ok (userspaceSetReply sys.env.sc err reply) := by
    rw [ipcSet]
    rcases hx : ipcSetDevice sys.sock d tr with ⟨r, t⟩
    rw [hx] at hp
    dsimp only at hp
    subst hp
    dsimp only
    rw [ha]
  obtain ⟨h1, -, h2⟩ := c24_set_code sys.env.sc err reply
  rw [e]
  exact ⟨fun kls kvs rest n a b c => by rw [h1 kls kvs rest n a b c], fun h => by rw [h2 h]⟩

/-- C62. Whatever the exit status: at most one set operation is attempted, and what has left the process is nothing, or the beginning of the change that the
file asks for (it can be completed to it). In particular a file with an error sends nothing. -/
theorem c62_failure {R : Readers} {sys : System} (hsys : Sane R sys) (env : Env) (hM : 0xffffffff < env.ulongMax) (sort : List PubkeyOrigin → List PubkeyOrigin)
    (ipc : Ipc) (cmd iface path : CStr) (hc : cmd = b!"setconf" ∨ cmd = b!"addconf") (tr : List SockEv) (sent : List Sent)
    (hrun : Carried sys ipc tr (setconfMain env sort ipc [cmd, iface, path]).calls sent) :
    sent = [] ∨ sent = [.nothing] ∨ ∃ secs x, FileGives (docNow env) env path secs ∧ sent = [x] ∧
      (EndpointsRead R sys x (fileMeaning (cmd = b!"addconf") secs) → ∀ s, ∃ s', Gives R sys (iface.take 15) x s s' ∧
        ∃ rest : List SetReq, rest.foldl applyReq s' = applyReq s (requestOf (fileMeaning (cmd = b!"addconf") secs))) := by
  rcases c11_all_or_nothing env hM sort ipc cmd iface path hc with ⟨secs, d, h1, h2, h3⟩ | ⟨h, -, -⟩
  · rw [h3] at hrun
    cases hrun with
    | set hx hrest =>
      cases hrest
      rename_i tr' x
      by_cases hnx : x = .nothing
      · exact .inr (.inl (by rw [hnx]))
      refine .inr (.inr ⟨secs, x, h1, rfl, fun hE => ?_⟩)
      have hd : requestOf d = requestOf (fileMeaning (cmd = b!"addconf") secs) := by rw [h2]; rfl
      have hn : d.name = iface.take 15 := by rw [h2]
      have hps : d.peers = (fileMeaning (cmd = b!"addconf") secs).peers := by rw [h2]
      rw [← hd, ← hn]
      exact (ipcSet_spec hsys _ _ d _ x hx (by rw [hn, List.length_take]; omega) (by rw [hps]; exact fileGives_range _ h1)
        (by rw [EndpointsRead, hps]; exact hE)).2 hnx
  · rw [h] at hrun
    cases hrun
    exact .inl rfl


theorem setconf_calls (env : Env) (sort : List PubkeyOrigin → List PubkeyOrigin) (ipc : Ipc) (iface path : CStr) :
    (setconfMain env sort ipc [b!"setconf", iface, path]).calls = match readConfigFile env false path with
      | .ok d => [.set { d with name := iface.take 15 }]
      | _ => [] := by
  simp only [setconfMain]
  rw [show decide (b!"setconf" = b!"addconf") = false from by decide]
  cases readConfigFile env false path with
  | ok d => simp only [if_neg (show ¬ b!"setconf" = b!"syncconf" by decide), sendDevice_eq, copyName]
  | _ => rfl

/-- C62. Kernel or userspace, it makes no difference: after successful `wg setconf` with the same file on two interfaces, of whatever kind and in whatever
states before, both hold the same. -/
theorem c62_kinds_agree {R R' : Readers} {sys sys' : System} (hsys : Sane R sys) (hsys' : Sane R' sys') (env : Env) (hM : 0xffffffff < env.ulongMax)
    (sort sort' : List PubkeyOrigin → List PubkeyOrigin) (ipc ipc' : Ipc) (iface iface' path : CStr) (tr tr' : List SockEv) (x x' : Sent)
    (hrun : Carried sys ipc tr (setconfMain env sort ipc [b!"setconf", iface, path]).calls [x])
    (h0 : (setconfMain env sort ipc [b!"setconf", iface, path]).end_ = .ok 0)
    (hrun' : Carried sys' ipc' tr' (setconfMain env sort' ipc' [b!"setconf", iface', path]).calls [x'])
    (h0' : (setconfMain env sort' ipc' [b!"setconf", iface', path]).end_ = .ok 0)
    (hE : ∀ d, .set d ∈ (setconfMain env sort ipc [b!"setconf", iface, path]).calls → EndpointsRead R sys x d)
    (hE' : ∀ d, .set d ∈ (setconfMain env sort' ipc' [b!"setconf", iface', path]).calls → EndpointsRead R' sys' x' d) (s s' t t' : Iface)
    (h : Gives R sys (iface.take 15) x s s') (h' : Gives R' sys' (iface'.take 15) x' t t') : s' = t' := by
  have key : ∀ {R : Readers} {sys : System} (hsys : Sane R sys) (sort : List PubkeyOrigin → List PubkeyOrigin) (ipc : Ipc) (iface : CStr) (tr : List SockEv) (x : Sent)
      (hrun : Carried sys ipc tr (setconfMain env sort ipc [b!"setconf", iface, path]).calls [x])
      (h0 : (setconfMain env sort ipc [b!"setconf", iface, path]).end_ = .ok 0)
      (hE : ∀ d, .set d ∈ (setconfMain env sort ipc [b!"setconf", iface, path]).calls → EndpointsRead R sys x d) (s s' : Iface)
      (h : Gives R sys (iface.take 15) x s s'), ∃ d, readConfigFile env false path = .ok d ∧ ∀ u, s' = applyReq u (requestOf d) := by
    intro R sys hsys sort ipc iface tr x hrun h0 hE s s' h
    obtain ⟨secs, x', h1, h2, h3⟩ := c62_setconf hsys env hM sort ipc b!"setconf" iface path (.inl rfl) tr [x] hrun h0
    cases h2
    cases hr : readConfigFile env false path with
    | ok d =>
      rw [setconf_calls, hr] at hE hrun
      refine ⟨d, rfl, fun u => ?_⟩
      cases hrun with
      | set hx hrest =>
        cases hrest
        obtain ⟨secs2, hf2, hd⟩ := c14_read_sound env hM false path d hr
        have hz : ipc.set { d with name := iface.take 15 } = 0 := by
          by_contra hc
          have he : (setconfMain env sort ipc [b!"setconf", iface, path]).end_ = .ok 1 := by
            simp only [setconfMain]
            rw [show decide (b!"setconf" = b!"addconf") = false from by decide, hr]
            simp only [if_neg (show ¬ b!"setconf" = b!"syncconf" by decide), sendDevice, copyName, hc, ne_eq, not_false_eq_true, if_true]
          rw [he] at h0
          cases h0
        have := (ipcSet_spec hsys _ _ { d with name := iface.take 15 } _ x hx (by simp only [List.length_take]; omega)
          (by rw [hd]; exact fileGives_range false hf2) (hE _ (by simp))).1 hz
        rw [this.2 s s' h]
        exact c22_setconf_independent_of_past env sort ipc iface path { d with name := iface.take 15 } (by rw [setconf_calls, hr]; simp) s u
    | _ => rw [setconf_calls, hr] at hrun; cases hrun
  obtain ⟨d, hd, h1⟩ := key hsys sort ipc iface tr x hrun h0 hE s s' h
  obtain ⟨d', hd', h2⟩ := key hsys' sort' ipc' iface' tr' x' hrun' h0' hE' t t' h'
  rw [hd] at hd'
  cases hd'
  rw [h1 s, h2 s]

/-- C62. Copying an interface: `wg showconf` of one, its text in a file, and `wg setconf` of another with that file. If both exit with 0, the other interface
is left in exactly the state `s0` of the first, whatever it held before; the first being reached through netlink or a socket, and the second too. -/
theorem c62_copy {R : Readers} {src dst : System} (hdst : Sane R dst) (hK : 128 < src.env.ulongMax)
    (name : CStr) (hname : name.length ≤ 15) (hfuel : 0 < src.fuel) (s0 : Iface) (hs0 : s0.Ranged)
    (hk : (ipcGetDevice src.sock name []).1 = .kernel name → KernelReports src s0) (hu : (∃ p, (ipcGetDevice src.sock name []).1 = .socket p) → SocketReports src s0)
    (sipc : ShowIpc) (tr0 : List SockEv) (hget : ipcGet src [] name = (.ok (sipc.get name), tr0))
    (o : OutEnv) (hshow : (showconfMain o sipc [name]).end_ = .ok 0)
    (env : Env) (hM : 0xffffffff < env.ulongMax) (hR : ReadsBack (ntopAddr o) env.pton4 env.pton6 (portOf env))
    (hE : ∀ k p, s0.peers k = some p → p.endpoint ≠ .unset → EndpointReadsBack o.nameinfo (resolvesAlways env) p.endpoint)
    (path : CStr) (f : FileObj) (hf : env.file path = some f) (hout : f.bytes = (showconfMain o sipc [name]).out)
    (sort : List PubkeyOrigin → List PubkeyOrigin) (ipc : Ipc) (target : CStr) (tr : List SockEv) (sent : List Sent)
    (hrun : Carried dst ipc tr (setconfMain env sort ipc [b!"setconf", target, path]).calls sent)
    (hset : (setconfMain env sort ipc [b!"setconf", target, path]).end_ = .ok 0)
    (hP : ∀ k p, s0.peers k = some p → p.endpoint ≠ .unset → Printable R dst.out.nameinfo p.endpoint) :
    ∃ x, sent = [x] ∧ ∀ s, Gives R dst (target.take 15) x s s0 ∧ ∀ s', Gives R dst (target.take 15) x s s' → s' = s0 := by
  have hrep : ∃ d, sipc.get name = (0, some d) ∧ Reports d s0 := by
    rw [ipcGet] at hget
    split at hget
    · rename_i p tr1 hd
      obtain ⟨dev, peers, h1, h2⟩ := hu ⟨p, by rw [hd]⟩
      rw [c26_get_reads_report src.env hK src.pubOf name src.report dev peers h1] at hget
      simp only [Prod.mk.injEq, Res.ok.injEq] at hget
      exact ⟨_, hget.1.symm, ⟨h2.1, h2.2, h2.3, h2.4, h2.5, h2.6, h2.7, h2.8⟩⟩
    · rename_i e tr1 hd
      simp only [Prod.mk.injEq, Res.ok.injEq] at hget
      simp only [showconfMain, ← hget.1] at hshow
      split at hshow <;> cases hshow
    · rename_i n tr1 hd
      have hn : n = name := (c46_paths src.sock name {} []).2.2.2.2.1 n (by rw [hd])
      subst hn
      obtain ⟨ho, hse, ds, ms, whole, fs, h1, h2, h3, h4, h5, h6⟩ := hk (by rw [hd])
      obtain ⟨m, hm⟩ : ∃ m, src.fuel = m + 1 := ⟨src.fuel - 1, by omega⟩
      have hnd : (whole.peers.map PeerDump.key).Nodup := by
        have := h6.keys
        simpa [DevDump.device, List.map_map, Function.comp_def, PeerDump.peer] using this
      rw [hm, c31_dump_read n hname src.attempts 0 m ho hse ds h1 h2 ms h3 whole fs h4 h5 hnd] at hget
      simp only [Prod.mk.injEq, Res.ok.injEq] at hget
      exact ⟨_, hget.1.symm, h6⟩
  obtain ⟨d, hd, hrep⟩ := hrep
  have hE' : ∀ p ∈ d.peers, p.endpoint ≠ .unset → EndpointReadsBack o.nameinfo (resolvesAlways env) p.endpoint :=
    fun p hp he => hE _ _ (hrep.peer p hp) he
  have hb : ∀ p ∈ d.peers, ∀ a ∈ p.allowedIPs, a.cidr.toNat ≤ addrBits a.addr :=
    fun p hp a ha => hs0 a p.publicKey ((hrep.owner a p.publicKey).2 ⟨p, hp, rfl, ha⟩)
  have hread := (c38_setconf_reads_showconf env hM o hR d hE' hb sipc name hd path f hf hout).2
  have hz : ipc.set { Device.asRequest d with name := target.take 15 } = 0 := by
    by_contra hc
    have he : (setconfMain env sort ipc [b!"setconf", target, path]).end_ = .ok 1 := by
      simp only [setconfMain]
      rw [show decide (b!"setconf" = b!"addconf") = false from by decide, hread]
      simp only [if_neg (show ¬ b!"setconf" = b!"syncconf" by decide), sendDevice, copyName, hc, ne_eq, not_false_eq_true, if_true]
    rw [he] at hset
    cases hset
  rw [setconf_calls, hread] at hrun
  cases hrun with
  | set hx hrest =>
    cases hrest
    rename_i tr' x
    have hmem : ∀ q ∈ (Device.asRequest d).peers, ∃ p ∈ d.peers, q.endpoint = p.endpoint ∧ q.allowedIPs = p.allowedIPs := by
      intro q hq
      simp only [Device.asRequest, List.mem_map] at hq
      obtain ⟨p, hp, rfl⟩ := hq
      exact ⟨p, hp, rfl, rfl⟩
    have hmk := (ipcSet_spec hdst _ _ { Device.asRequest d with name := target.take 15 } _ x hx (by simp only [List.length_take]; omega)
      (fun q hq => by obtain ⟨p, hp, -, h2⟩ := hmem q hq; rw [h2]; exact hb p hp)
      (fun _ q hq he => by
        obtain ⟨p, hp, h1, -⟩ := hmem q hq
        rw [h1] at he ⊢
        exact hP _ _ (hrep.peer p hp) he)).1 hz
    have hreq : ∀ s, applyReq s (requestOf { Device.asRequest d with name := target.take 15 }) = s0 := fun s => by
      rw [← asRequest_reproduces d s0 s hrep]; rfl
    refine ⟨x, rfl, fun s => ⟨?_, fun s' h => ?_⟩⟩
    · have := hmk.1 s
      rwa [hreq] at this
    · rw [hmk.2 s s' h, hreq]

theorem syncconf_zero (env : Env) (sort : List PubkeyOrigin → List PubkeyOrigin) (ipc : Ipc) (iface path : CStr)
    (h0 : (setconfMain env sort ipc [b!"syncconf", iface, path]).end_ = .ok 0) :
    ∃ d gets, (setconfMain env sort ipc [b!"syncconf", iface, path]).calls = gets ++ [.set d] ∧ (gets = [] ∨ ∃ n, gets = [.get n]) ∧ ipc.set d = 0 := by
  have hsend : ∀ d, (sendDevice ipc d).end_ = .ok 0 → (sendDevice ipc d).calls = [.set d] ∧ ipc.set d = 0 := by
    intro d h
    rw [sendDevice] at h ⊢
    split at h
    · cases h
    · rename_i hz
      rw [if_neg hz]
      exact ⟨rfl, by simpa using hz⟩
  simp only [setconfMain] at h0 ⊢
  cases hr : readConfigFile env (decide (b!"syncconf" = b!"addconf")) path with
  | ok d0 =>
    simp only [hr, if_true] at h0 ⊢
    have hcalls : (syncConf sort ipc { d0 with name := copyName iface }).2 = [] ∨ ∃ n, (syncConf sort ipc { d0 with name := copyName iface }).2 = [.get n] := by
      rw [syncConf]
      split
      · exact .inl rfl
      · split
        · split <;> exact .inr ⟨_, rfl⟩
        · exact .inr ⟨_, rfl⟩
        · exact .inr ⟨_, rfl⟩
    cases hc : syncConf sort ipc { d0 with name := copyName iface } with
    | mk r calls =>
      rw [hc] at h0 hcalls
      cases r with
      | ok d =>
        obtain ⟨h1, h2⟩ := hsend d h0
        exact ⟨d, calls, by simp only [h1], hcalls, h2⟩
      | ub => cases h0
      | _ => cases h0
  | _ => rw [hr] at h0; cases h0

/-- C62. `wg syncconf` with exit status 0, if the interface reported its peers truthfully: afterwards its peers are exactly those of the file, its settings
and the owners of its networks are those `wg setconf` would have given it, and so is every setting of a peer that the file mentions; through netlink or a
socket. -/
theorem c62_syncconf {R : Readers} {sys : System} (hsys : Sane R sys) (env : Env) (hM : 0xffffffff < env.ulongMax) (sort : List PubkeyOrigin → List PubkeyOrigin)
    (hs : IsSort sort) (ipc : Ipc) (iface path : CStr) (tr : List SockEv) (sent : List Sent)
    (hrun : Carried sys ipc tr (setconfMain env sort ipc [b!"syncconf", iface, path]).calls sent)
    (h0 : (setconfMain env sort ipc [b!"syncconf", iface, path]).end_ = .ok 0) :
    ∃ secs x, FileGives (docNow env) env path secs ∧ sent = [x] ∧ (EndpointsRead R sys x (fileMeaning false secs) →
      ∀ s, s.WF → (∀ rt, ipc.get (iface.take 15) = (0, some rt) → Agrees s rt) → (∃ sync, Gives R sys (iface.take 15) x s sync) ∧
        ∀ sync, Gives R sys (iface.take 15) x s sync →
          let setc := applyReq s (requestOf (fileMeaning false secs))
          (∀ k, (sync.peers k).isSome = true ↔ k ∈ fileKeys secs) ∧
          sync.privateKey = setc.privateKey ∧ sync.listenPort = setc.listenPort ∧ sync.fwmark = setc.fwmark ∧ sync.owner = setc.owner ∧
          ∀ k,
            (Mentions secs k (·.flags.hasPresharedKey = true) → (sync.peers k).map (·.psk) = (setc.peers k).map (·.psk)) ∧
            (Mentions secs k (·.endpoint ≠ .unset) → (sync.peers k).map (·.endpoint) = (setc.peers k).map (·.endpoint)) ∧
            (Mentions secs k (·.flags.hasKeepalive = true) → (sync.peers k).map (·.keepalive) = (setc.peers k).map (·.keepalive))) := by
  obtain ⟨d, gets, hcalls, hgets, hz⟩ := syncconf_zero env sort ipc iface path h0
  have hmem : .set d ∈ (setconfMain env sort ipc [b!"syncconf", iface, path]).calls := by rw [hcalls]; simp
  have hname : d.name = iface.take 15 := (c47_target env sort ipc b!"syncconf" iface [path]).2 _ hmem
  obtain ⟨d0, hd0, H⟩ := syncconf_sends env sort ipc iface path d hmem
  obtain ⟨secs, h1, rfl⟩ := c14_read_sound env hM false path d0 hd0
  have hpeers : ∀ p ∈ d.peers, p ∈ (fileMeaning false secs).peers ∨ (p.endpoint = .unset ∧ p.allowedIPs = []) := by
    intro p hp
    rcases H with ⟨-, rfl⟩ | ⟨rt, -, -, ⟨-, rfl⟩ | ⟨-, rfl⟩⟩
    · exact .inl hp
    · exact .inl hp
    · simp only [syncPeers, pushRemovals_eq, List.mem_append, List.mem_reverse, List.mem_map] at hp
      rcases hp with ⟨k, -, rfl⟩ | hp
      · exact .inr ⟨rfl, rfl⟩
      · exact .inl hp
  have hset : ∃ x tr1 tr2, sent = [x] ∧ ipcSet sys tr1 d = (.ok (ipc.set d), x, tr2) := by
    rw [hcalls] at hrun
    rcases hgets with rfl | ⟨n, rfl⟩
    · cases hrun with | set hx hrest => cases hrest; exact ⟨_, _, _, rfl, hx⟩
    · cases hrun with | get _ hrest => cases hrest with | set hx hrest => cases hrest; exact ⟨_, _, _, rfl, hx⟩
  obtain ⟨x, tr1, tr2, rfl, hx⟩ := hset
  refine ⟨secs, x, h1, rfl, fun hE s hwf hag => ?_⟩
  have hmk := (ipcSet_spec hsys _ _ d _ x hx (by rw [hname, List.length_take]; omega)
    (fun p hp => by
      rcases hpeers p hp with h | ⟨-, h⟩
      · exact fileGives_range false h1 p h
      · rw [h]; simp)
    (fun hs p hp hu => by
      rcases hpeers p hp with h | ⟨h, -⟩
      · exact hE hs p h hu
      · exact absurd h hu)).1 hz
  rw [hname] at hmk
  refine ⟨⟨_, hmk.1 s⟩, fun sync hg => ?_⟩
  rw [hmk.2 s sync hg]
  exact ⟨sync_peers_are_the_files env sort hs ipc iface path d hmem secs hd0 s hag, sync_agrees_with_setconf env sort hs ipc iface path d hmem secs hd0 s hwf hag⟩

/-! ### Examples -/

/-- A system whose interfaces are in the kernel: no sockets, a small netlink buffer, every message acknowledged, and a dump in two datagrams. -/
def kernelSys : System where
  sock := { sockEnv with stat := fun _ _ => .error 2 }
  nl := smallCtx
  nlOpen := none
  portid := 77
  seq := fun _ => 5
  send := fun _ => none
  replies := ackAll
  attempts := dumpEnv
  out := stdOut
  env := stdEnv
  pubOf := id
  answer := fun _ => (0, [])
  report := []
  fuel := 20

/-- A system whose interfaces have sockets that accept all requests. -/
def socketSys : System := { kernelSys with sock := sockEnv, answer := fun _ => (0, b!"errno=0" ++ [10, 10]) }

theorem kernelSys_sane : Sane stdReaders kernelSys where
  buffer := by decide
  sendErrno := by simp [kernelSys]
  openErrno := by simp [kernelSys]
  sockErrno tr := by simp [kernelSys, sockEnv]
  reads := stdReaders_ok

theorem socketSys_sane : Sane stdReaders socketSys where
  buffer := by decide
  sendErrno := by simp [socketSys, kernelSys]
  openErrno := by simp [socketSys, kernelSys]
  sockErrno tr := by simp [socketSys, sockEnv]
  reads := stdReaders_ok

/-- An interface that accepts what it is given. -/
def acceptIpc : Ipc := ⟨fun _ => (0, some {}), fun _ => 0⟩

theorem sample_ends (sort : List PubkeyOrigin → List PubkeyOrigin) : setconfMain (fileEnv ⟨sampleFile, none, true⟩) sort acceptIpc [b!"setconf", b!"wg0", b!"f"] =
    ⟨.ok 0, [.set { sampleConf with name := b!"wg0" }]⟩ := by
  simp only [setconfMain]
  rw [show decide (b!"setconf" = b!"addconf") = false from by decide, sampleConf_read]
  simp only [if_neg (show ¬ b!"setconf" = b!"syncconf" by decide), sendDevice_eq, copyName, acceptIpc]
  rfl

/-- `wg setconf wg0 f` with the sample file, into the kernel: the hypotheses of `c62_setconf` are met, and so they are on a socket. -/
example (sort : List PubkeyOrigin → List PubkeyOrigin) : ∃ x y,
    Carried kernelSys acceptIpc [] (setconfMain (fileEnv ⟨sampleFile, none, true⟩) sort acceptIpc [b!"setconf", b!"wg0", b!"f"]).calls [x] ∧
    Carried socketSys acceptIpc [] (setconfMain (fileEnv ⟨sampleFile, none, true⟩) sort acceptIpc [b!"setconf", b!"wg0", b!"f"]).calls [y] ∧
    (setconfMain (fileEnv ⟨sampleFile, none, true⟩) sort acceptIpc [b!"setconf", b!"wg0", b!"f"]).end_ = .ok 0 ∧
    (∃ msgs, x = .kernel msgs ∧ msgs.length = 1) ∧ (∃ text, y = .socket b!"/var/run/wireguard/wg0.sock" text) ∧
    ∀ s s' t t', Gives stdReaders kernelSys b!"wg0" x s s' → Gives stdReaders socketSys b!"wg0" y t t' → s' = t' := by
  have hk : ipcSet kernelSys [] { sampleConf with name := b!"wg0" } =
      (.ok 0, .kernel (setLoop smallCtx 77 (fun _ => 5) (fun _ => none) ackAll { sampleConf with name := b!"wg0" } 20 0 .start).2, [.stat b!"/var/run/wireguard/wg0.sock"]) := by
    have h : (setLoop smallCtx 77 (fun _ => 5) (fun _ => none) ackAll { sampleConf with name := b!"wg0" } 20 0 .start).1 = .ok 0 := by decide +kernel
    show ((setLoop smallCtx 77 (fun _ => 5) (fun _ => none) ackAll { sampleConf with name := b!"wg0" } 20 0 .start).1, _, _) = _
    rw [h]
    rfl
  have hsk : ∃ tr, ipcSet socketSys [] { sampleConf with name := b!"wg0" } = (.ok 0, .socket b!"/var/run/wireguard/wg0.sock" (emitSet stdOut { sampleConf with name := b!"wg0" }), tr) := by
    refine ⟨(ipcSet socketSys [] { sampleConf with name := b!"wg0" }).2.2, ?_⟩
    have h : userspaceSetReply stdEnv.sc 0 (b!"errno=0" ++ [10, 10]) = 0 := by decide +kernel
    show (Res.ok (userspaceSetReply stdEnv.sc 0 (b!"errno=0" ++ [10, 10])), _, _) = _
    rw [h]
    rfl
  obtain ⟨tr, hsk⟩ := hsk
  have c1 : Carried kernelSys acceptIpc [] (setconfMain (fileEnv ⟨sampleFile, none, true⟩) sort acceptIpc [b!"setconf", b!"wg0", b!"f"]).calls [.kernel (setLoop smallCtx 77 (fun _ => 5) (fun _ => none) ackAll { sampleConf with name := b!"wg0" } 20 0 .start).2] := by
    rw [sample_ends]; exact .set hk (.nil _)
  have c2 : Carried socketSys acceptIpc [] (setconfMain (fileEnv ⟨sampleFile, none, true⟩) sort acceptIpc [b!"setconf", b!"wg0", b!"f"]).calls [.socket b!"/var/run/wireguard/wg0.sock" (emitSet stdOut { sampleConf with name := b!"wg0" })] := by
    rw [sample_ends]; exact .set hsk (.nil _)
  refine ⟨_, _, c1, c2, by rw [sample_ends], ⟨_, rfl, by decide +kernel⟩, ⟨_, rfl⟩, fun s s' t t' h h' => ?_⟩
  refine c62_kinds_agree kernelSys_sane socketSys_sane (fileEnv ⟨sampleFile, none, true⟩) (by decide) sort sort acceptIpc acceptIpc b!"wg0" b!"wg0" b!"f" [] [] _ _ c1
    (by rw [sample_ends]) c2 (by rw [sample_ends]) ?_ ?_ s s' t t' h h'
  · intro d _ ⟨_, _, h⟩; cases h
  · intro d hd _ p hp hu
    rw [sample_ends] at hd
    simp only [List.mem_singleton, IpcCall.set.injEq] at hd
    subst hd
    simp only [sampleConf, List.mem_singleton] at hp
    subst hp
    exact absurd rfl hu

/-- The interface whose dump `kernelSys` gives. -/
def dumpState : Iface where
  privateKey := Vector.replicate 32 1
  listenPort := 51820
  peers k := if k = Vector.replicate 32 7 then some { keepalive := 25 } else if k = Vector.replicate 32 9 then some { endpoint := .in4 #v[192, 0, 2, 1] 1234 } else none
  owner n := if n ∈ [⟨.v4 #v[10, 0, 1, 0], 24⟩, ⟨.v4 #v[10, 0, 2, 0], 24⟩, ⟨.v4 #v[10, 0, 3, 0], 24⟩] then some (Vector.replicate 32 7) else none

theorem dumpState_reported : Reports dumpDevice.device dumpState where
  port := rfl
  mark := rfl
  priv := rfl
  keys := by decide +kernel
  peer p hp := by
    simp only [dumpDevice, DevDump.device, List.map_cons, List.map_nil, List.mem_cons, List.not_mem_nil, or_false] at hp
    rcases hp with rfl | rfl
    · rfl
    · decide +kernel
  none k hk := by
    simp only [dumpDevice, DevDump.device, List.map_cons, List.map_nil, List.mem_cons, List.not_mem_nil, or_false, not_or, PeerDump.peer] at hk
    simp only [dumpState, if_neg hk.1, if_neg hk.2]
  owner n k := by
    simp only [dumpState, dumpDevice, DevDump.device, List.map_cons, List.map_nil, List.mem_cons, List.not_mem_nil, or_false, exists_eq_or_imp, exists_eq_left, PeerDump.peer,
      and_false, or_false]
    constructor
    · intro h; split at h
      · exact ⟨Option.some.inj h, by assumption⟩
      · cases h
    · rintro ⟨rfl, h⟩; rw [if_pos h]
  net p hp := by
    simp only [dumpDevice, DevDump.device, List.map_cons, List.map_nil, List.mem_cons, List.not_mem_nil, or_false] at hp
    rcases hp with rfl | rfl <;> decide +kernel

/-- Copying that kernel interface to one with a socket: the hypotheses of `c62_copy` are met. -/
example (sort : List PubkeyOrigin → List PubkeyOrigin) :
    ∃ sent, Carried socketSys acceptIpc [] (setconfMain (fileEnv ⟨(showconfMain stdOut ⟨some [], fun _ => (0, some dumpDevice.device)⟩ [b!"wg0"]).out, none, true⟩) sort acceptIpc
        [b!"setconf", b!"tun0", b!"f"]).calls sent ∧
      ∃ x, sent = [x] ∧ ∀ s, Gives stdReaders socketSys b!"tun0" x s dumpState ∧ ∀ s', Gives stdReaders socketSys b!"tun0" x s s' → s' = dumpState := by
  have hE : ∀ k p, dumpState.peers k = some p → p.endpoint ≠ .unset → p.endpoint = .in4 #v[192, 0, 2, 1] 1234 := by
    intro k p h hu
    simp only [dumpState] at h
    split at h
    · cases h; exact absurd rfl hu
    · split at h
      · cases h; rfl
      · cases h
  have hrange : dumpState.Ranged := by
    intro n k h
    simp only [dumpState] at h
    split at h
    · rename_i hm
      simp only [List.mem_cons, List.not_mem_nil, or_false] at hm
      rcases hm with rfl | rfl | rfl <;> decide
    · cases h
  have hdump : KernelReports kernelSys dumpState := by
    refine ⟨rfl, rfl, [(dumpFirst, List.replicate 40 255), (dumpSecond ++ dumpDone, [])], [dumpNl dumpFirst, dumpNl dumpSecond], dumpDevice, dumpFragments, rfl, by decide +kernel, ?_, ?_, ?_,
      dumpState_reported⟩
    · exact .more dumpFirst _ [dumpNl dumpFirst] [dumpNl dumpSecond] (by decide +kernel) (by simp) (by decide +kernel)
        (.last (dumpSecond ++ dumpDone) [] [dumpNl dumpSecond] [] ⟨3, 2, 5, 77, [0, 0, 0, 0]⟩ (by decide +kernel) (by decide +kernel) (by decide +kernel))
    · exact .cons (by decide +kernel) (.cons (by decide +kernel) .nil)
    · refine ⟨by decide +kernel, by decide +kernel, by simp [dumpFragments], ?_⟩
      exact .cut false _ _ _ rfl (by simp) (.whole true _ (.whole false _ .nil))
  have hset : ∀ d : Device, d.name = b!"tun0" → ∃ x tr, ipcSet socketSys [] d = (.ok 0, x, tr) := by
    intro d hd
    have h : userspaceSetReply stdEnv.sc 0 (b!"errno=0" ++ [10, 10]) = 0 := by decide +kernel
    have hs : ∃ tr, ipcSetDevice sockEnv d [] = (.socket (sockPath sockEnv b!"tun0"), tr) := by
      rw [ipcSetDevice, hd]
      exact ⟨_, rfl⟩
    obtain ⟨tr, hs⟩ := hs
    refine ⟨.socket (sockPath sockEnv b!"tun0") (emitSet stdOut d), tr, ?_⟩
    rw [ipcSet]
    rw [show ipcSetDevice socketSys.sock d [] = _ from hs]
    show (Res.ok (userspaceSetReply stdEnv.sc 0 (b!"errno=0" ++ [10, 10])), _, _) = _
    rw [h]
    rfl
  have hend : (setconfMain (fileEnv ⟨(showconfMain stdOut ⟨some [], fun _ => (0, some dumpDevice.device)⟩ [b!"wg0"]).out, none, true⟩) sort acceptIpc
      [b!"setconf", b!"tun0", b!"f"]).end_ = .ok 0 ∧ ∃ d : Device, d.name = b!"tun0" ∧
      (setconfMain (fileEnv ⟨(showconfMain stdOut ⟨some [], fun _ => (0, some dumpDevice.device)⟩ [b!"wg0"]).out, none, true⟩) sort acceptIpc
      [b!"setconf", b!"tun0", b!"f"]).calls = [.set d] := by
    have hread : readConfigFile (fileEnv ⟨(showconfMain stdOut ⟨some [], fun _ => (0, some dumpDevice.device)⟩ [b!"wg0"]).out, none, true⟩) false b!"f" =
        .ok (Device.asRequest dumpDevice.device) :=
      (c38_setconf_reads_showconf (fileEnv _) (show 0xffffffff < 2 ^ 64 - 1 by decide) stdOut (std_readsBack _ rfl rfl rfl) dumpDevice.device
        (fun p hp hu => by rw [show p.endpoint = _ from hE _ _ (dumpState_reported.peer p hp) hu]; exact std_endpoint4 _ rfl rfl (by decide) _ _)
        (fun p hp a ha => hrange a p.publicKey ((dumpState_reported.owner a p.publicKey).2 ⟨p, hp, rfl, ha⟩)) _ b!"wg0" rfl b!"f" _ rfl rfl).2
    simp only [setconfMain]
    rw [show decide (b!"setconf" = b!"addconf") = false from by decide, hread]
    simp only [if_neg (show ¬ b!"setconf" = b!"syncconf" by decide), sendDevice_eq, copyName, acceptIpc]
    exact ⟨rfl, _, rfl, rfl⟩
  obtain ⟨h0, d, hd, hcalls⟩ := hend
  obtain ⟨x, tr, hx⟩ := hset d hd
  have hrun : Carried socketSys acceptIpc [] (setconfMain (fileEnv ⟨(showconfMain stdOut ⟨some [], fun _ => (0, some dumpDevice.device)⟩ [b!"wg0"]).out, none, true⟩) sort acceptIpc
        [b!"setconf", b!"tun0", b!"f"]).calls [x] := by
    rw [hcalls]; exact .set hx (.nil _)
  refine ⟨[x], hrun, ?_⟩
  refine c62_copy (src := kernelSys) socketSys_sane (by decide) b!"wg0" (by decide) (by decide) dumpState hrange (fun _ => hdump) ?_
    ⟨some [], fun _ => (0, some dumpDevice.device)⟩ [.stat b!"/var/run/wireguard/wg0.sock"] ?_ stdOut rfl (fileEnv _) (show 0xffffffff < 2 ^ 64 - 1 by decide)
    (std_readsBack _ rfl rfl rfl) ?_ b!"f" _ rfl rfl sort acceptIpc b!"tun0" [] [x] hrun h0 ?_
  · rintro ⟨p, hp⟩; cases hp
  · have hk : kernelGet b!"wg0" dumpEnv 20 0 = .ok (0, some dumpDevice.device) := by decide +kernel
    show (kernelGet b!"wg0" dumpEnv 20 0, _) = _
    rw [hk]
    rfl
  · intro k p hp hu
    rw [hE k p hp hu]; exact std_endpoint4 _ rfl rfl (by decide) _ _
  · intro k p hp hu
    rw [hE k p hp hu]; exact std_printable4 _ _

end WG.Props
