import Verif.Proof.Sync
import Verif.Props.Config
/-! C19-C22: setconf and syncconf, for every prior state of the interface (`Spec.Iface`, semantics `Spec.applyReq`). -/
namespace WG.Props
open WG WG.Spec

/-- Public keys of the peers a file lists. -/
def fileKeys (secs : List Section) : List Key := (peerSections secs).map fun l => (peerMeaning l).publicKey

theorem fileKeys_eq (append : Bool) (secs : List Section) : peerKeys (fileMeaning append secs) = fileKeys secs := by
  simp [peerKeys, fileMeaning, fileKeys]

/-- A sort that satisfies `IsSort` exists (insertion sort), so the hypotheses below can be met. -/
def isort : List PubkeyOrigin → List PubkeyOrigin
  | [] => []
  | a :: l => ins a (isort l)
where ins (a : PubkeyOrigin) : List PubkeyOrigin → List PubkeyOrigin
  | [] => [a]
  | b :: l => if pubkeyCmp a b ≤ 0 then a :: b :: l else b :: ins a l

theorem memcmp_trans (a b c : List UInt8) (hl : a.length = b.length) (hl2 : b.length = c.length)
    (h1 : memcmp a b ≤ 0) (h2 : memcmp b c ≤ 0) : memcmp a c ≤ 0 ∧ (memcmp a c = 0 → memcmp a b = 0 ∧ memcmp b c = 0) := by
  induction a generalizing b c with
  | nil => cases b with | nil => simp [memcmp] at * | cons => simp at hl
  | cons x a ih =>
    cases b with
    | nil => simp at hl
    | cons y b =>
      cases c with
      | nil => simp at hl2
      | cons z c =>
        simp only [memcmp, UInt8.lt_iff_toNat_lt] at *
        simp only [List.length_cons, Nat.add_right_cancel_iff] at hl hl2
        have := ih b c hl hl2
        repeat' split at h1
        all_goals repeat' split at h2
        all_goals repeat' split
        all_goals omega

theorem pubkeyCmp_total (a b : PubkeyOrigin) : pubkeyCmp a b ≤ 0 ∨ pubkeyCmp b a ≤ 0 := by
  simp only [pubkeyCmp, memcmp_neg a.pubkey.toList b.pubkey.toList]
  repeat' split
  all_goals omega

theorem pubkeyCmp_trans (a b c : PubkeyOrigin) (h1 : pubkeyCmp a b ≤ 0) (h2 : pubkeyCmp b c ≤ 0) : pubkeyCmp a c ≤ 0 := by
  have H := memcmp_trans a.pubkey.toList b.pubkey.toList c.pubkey.toList (by simp) (by simp) (cmp_le_key h1) (cmp_le_key h2)
  simp only [pubkeyCmp] at *
  repeat' split at h1
  all_goals repeat' split at h2
  all_goals repeat' split
  all_goals omega

theorem ins_perm (a : PubkeyOrigin) (l : List PubkeyOrigin) : (isort.ins a l).Perm (a :: l) := by
  induction l with
  | nil => exact List.Perm.refl _
  | cons b l ih =>
    simp only [isort.ins]; split
    · exact List.Perm.refl _
    · exact (ih.cons b).trans (List.Perm.swap a b l)

theorem ins_sorted (a : PubkeyOrigin) (l : List PubkeyOrigin) (h : Sorted l) : Sorted (isort.ins a l) := by
  induction l with
  | nil => simp [isort.ins, Sorted]
  | cons b l ih =>
    simp only [isort.ins]
    simp only [Sorted, List.pairwise_cons] at h
    split
    · rename_i hab
      simp only [Sorted, List.pairwise_cons, List.mem_cons]
      refine ⟨?_, h.1, h.2⟩
      rintro c (rfl | hc)
      · exact hab
      · exact pubkeyCmp_trans a b c hab (h.1 c hc)
    · rename_i hab
      simp only [Sorted, List.pairwise_cons]
      refine ⟨?_, ih h.2⟩
      intro c hc
      rcases List.mem_cons.1 ((ins_perm a l).mem_iff.1 hc) with rfl | hc
      · exact (pubkeyCmp_total c b).resolve_left hab
      · exact h.1 c hc

theorem isort_isSort : IsSort isort := by
  intro l
  induction l with
  | nil => exact ⟨List.Perm.refl _, List.Pairwise.nil⟩
  | cons a l ih => exact ⟨(ins_perm a _).trans (ih.1.cons a), ins_sorted a _ ih.2⟩

/-- The interface state and what the tool read from it agree on the set of peers (nothing changed in between). -/
def Consistent (ipc : Ipc) (name : CStr) (s : Iface) : Prop := ∀ rt, ipc.get name = (0, some rt) → Agrees s rt

theorem sync_peers_are_the_files (env : Env) (sort : List PubkeyOrigin → List PubkeyOrigin) (hs : IsSort sort)
    (ipc : Ipc) (iface path : CStr) (d : Device)
    (h : .set d ∈ (setconfMain env sort ipc [b!"syncconf", iface, path]).calls) (secs : List Section)
    (hsec : readConfigFile env false path = .ok (fileMeaning false secs)) (s : Iface) (hc : Consistent ipc (iface.take 15) s) (k : Key) :
    ((applyReq s (requestOf d)).peers k).isSome = true ↔ k ∈ fileKeys secs := by
  obtain ⟨d0, hd0, H⟩ := syncconf_sends env sort ipc iface path d h
  have hf := c13_setconf_flags env path d0 hd0
  have h2 : d0 = fileMeaning false secs := Res.ok.inj (hd0.symm.trans hsec)
  have hk : peerKeys d0 = fileKeys secs := by rw [h2, fileKeys_eq]
  have hrm : ∀ p ∈ d0.peers, p.flags.removeMe = false := fun p hp => (hf.2.2.2.2 p hp).2
  rw [← hk]
  rcases H with ⟨h0, rfl⟩ | ⟨rt, h0, hg, ⟨-, rfl⟩ | ⟨-, rfl⟩⟩
  · exact plain_final_peers { d0 with name := iface.take 15 } s hf.1 hrm k
  · exact plain_final_peers { d0 with name := iface.take 15 } s hf.1 hrm k
  · exact sync_final_peers hs { d0 with name := iface.take 15 } rt s (hc rt hg) hrm k

/-- C19. If syncconf sends a set operation, then after it the interface has exactly the peers of the file, whatever it
held before. -/
theorem c19_peers_are_the_files (env : Env) (hM : 0xffffffff < env.ulongMax) (sort : List PubkeyOrigin → List PubkeyOrigin) (hs : IsSort sort)
    (ipc : Ipc) (iface path : CStr) (d : Device)
    (h : .set d ∈ (setconfMain env sort ipc [b!"syncconf", iface, path]).calls) :
    ∃ secs, FileGives (docNow env) env path secs ∧
      ∀ s, Consistent ipc (iface.take 15) s → ∀ k, ((applyReq s (requestOf d)).peers k).isSome = true ↔ k ∈ fileKeys secs := by
  obtain ⟨d0, hd0, -⟩ := syncconf_sends env sort ipc iface path d h
  obtain ⟨secs, h1, rfl⟩ := c14_read_sound env hM false path d0 hd0
  exact ⟨secs, h1, sync_peers_are_the_files env sort hs ipc iface path d h secs hd0⟩

/-- C20. When both the file and the interface have peers (the interface reporting each once), syncconf sends: no
request to replace all peers; one removal for each peer that is on the interface and not in the file, no other removal;
then the file's peers unchanged. In particular no peer that stays is removed. -/
theorem c20_staying_peers_undisturbed (env : Env) (hM : 0xffffffff < env.ulongMax) (sort : List PubkeyOrigin → List PubkeyOrigin) (hs : IsSort sort)
    (ipc : Ipc) (iface path : CStr) (d rt : Device)
    (h : .set d ∈ (setconfMain env sort ipc [b!"syncconf", iface, path]).calls)
    (hg : ipc.get (iface.take 15) = (0, some rt)) (hne : rt.peers ≠ []) (hdup : (rt.peers.map (·.publicKey)).Nodup) :
    ∃ secs, FileGives (docNow env) env path secs ∧ (peerSections secs ≠ [] →
      d.flags.replacePeers = false ∧
      ∃ gone : List Key, d.peers = gone.map (fun k => { publicKey := k, flags := { removeMe := true } }) ++ (peerSections secs).map peerMeaning ∧
        gone.Nodup ∧ ∀ k, k ∈ gone ↔ k ∈ rt.peers.map (·.publicKey) ∧ k ∉ fileKeys secs) := by
  obtain ⟨d0, hd0, H⟩ := syncconf_sends env sort ipc iface path d h
  obtain ⟨secs, h1, h2⟩ := c14_read_sound env hM false path d0 hd0
  refine ⟨secs, h1, ?_⟩
  intro hsec
  have hk : peerKeys d0 = fileKeys secs := by rw [h2, fileKeys_eq]
  have hp0 : d0.peers ≠ [] := by rw [h2]; simpa [fileMeaning] using hsec
  rcases H with ⟨h0, rfl⟩ | ⟨rt', h0, hg', ⟨hrt, rfl⟩ | ⟨hrt, rfl⟩⟩
  · exact absurd h0 hp0
  · rw [hg] at hg'; cases hg'; exact absurd hrt hne
  · rw [hg] at hg'; cases hg'
    refine ⟨rfl, (removals (sort (origins { d0 with name := iface.take 15 } rt))).reverse, ?_, ?_, ?_⟩
    · simp only [syncPeers, pushRemovals_eq, List.map_reverse]
      rw [h2]; rfl
    · rw [List.Nodup, List.pairwise_reverse]; exact List.Pairwise.imp (fun h => h.symm) <|  sync_removals_nodup hs _ rt hdup
    · intro k
      rw [List.mem_reverse, ← hk]
      constructor
      · intro hkm
        exact ⟨sync_removals_mem hs _ rt k hkm, sync_removals_exact hs { d0 with name := iface.take 15 } rt hdup k hkm⟩
      · rintro ⟨ha, hb⟩
        exact sync_removals_complete hs { d0 with name := iface.take 15 } rt k ha hb

/-- C20, counterexample without the distinctness hypothesis: an interface dump that lists a staying peer twice makes
syncconf send a removal for it. -/
theorem c20_duplicate_runtime_counterexample :
    ∃ (file rt : Device) (k : Key), k ∈ peerKeys file ∧ k ∈ peerKeys rt ∧
      { publicKey := k, flags := { removeMe := true } } ∈ (syncPeers isort file rt).peers := by
  refine ⟨{ peers := [{ publicKey := sampleKey }] }, { peers := [{ publicKey := sampleKey }, { publicKey := sampleKey }] }, sampleKey, by simp [peerKeys], by simp [peerKeys], ?_⟩
  have : isort (origins { peers := [{ publicKey := sampleKey }] } { peers := [{ publicKey := sampleKey }, { publicKey := sampleKey }] }) =
      [⟨sampleKey, false⟩, ⟨sampleKey, false⟩, ⟨sampleKey, true⟩] := by decide +kernel
  simp only [syncPeers, this, pushRemovals_eq, List.mem_append]
  left
  have : removals [⟨sampleKey, false⟩, ⟨sampleKey, false⟩, ⟨sampleKey, true⟩] = [sampleKey] := by decide +kernel
  rw [this]; simp [removalEntry]

/-- The last value of a peer field given in the file for key `k`, over all its sections, exists. -/
def Mentions (secs : List Section) (k : Key) (f : Peer → Prop) : Prop := ∃ l ∈ peerSections secs, (peerMeaning l).publicKey = k ∧ f (peerMeaning l)

theorem sync_agrees_with_setconf (env : Env) (sort : List PubkeyOrigin → List PubkeyOrigin) (hs : IsSort sort)
    (ipc : Ipc) (iface path : CStr) (d : Device)
    (h : .set d ∈ (setconfMain env sort ipc [b!"syncconf", iface, path]).calls) (secs : List Section)
    (hsec : readConfigFile env false path = .ok (fileMeaning false secs)) :
      ∀ s, s.WF → Consistent ipc (iface.take 15) s →
        let sync := applyReq s (requestOf d)
        let setc := applyReq s (requestOf (fileMeaning false secs))
        sync.privateKey = setc.privateKey ∧ sync.listenPort = setc.listenPort ∧ sync.fwmark = setc.fwmark ∧ sync.owner = setc.owner ∧
        ∀ k,
          (Mentions secs k (·.flags.hasPresharedKey = true) → (sync.peers k).map (·.psk) = (setc.peers k).map (·.psk)) ∧
          (Mentions secs k (·.endpoint ≠ .unset) → (sync.peers k).map (·.endpoint) = (setc.peers k).map (·.endpoint)) ∧
          (Mentions secs k (·.flags.hasKeepalive = true) → (sync.peers k).map (·.keepalive) = (setc.peers k).map (·.keepalive)) := by
  obtain ⟨d0, hd0, H⟩ := syncconf_sends env sort ipc iface path d h
  have hf := c13_setconf_flags env path d0 hd0
  have h2 : d0 = fileMeaning false secs := Res.ok.inj (hd0.symm.trans hsec)
  intro s hwf hc
  have plain : ∀ x : Device, x = { d0 with name := iface.take 15 } → requestOf x = requestOf (fileMeaning false secs) := by
    rintro x rfl; rw [← h2]; rfl
  have triv : ∀ x : Device, x = { d0 with name := iface.take 15 } → applyReq s (requestOf x) = applyReq s (requestOf (fileMeaning false secs)) :=
    fun x hx => by rw [plain x hx]
  rcases H with ⟨h0, hx⟩ | ⟨rt, h0, hg, ⟨-, hx⟩ | ⟨-, hx⟩⟩
  · simp only [triv d hx, implies_true, and_self]
  · simp only [triv d hx, implies_true, and_self]
  · subst hx
    have hrm : ∀ p ∈ d0.peers, p.flags.removeMe = false ∧ p.flags.replaceAllowedIPs = true := fun p hp => ⟨(hf.2.2.2.2 p hp).2, (hf.2.2.2.2 p hp).1⟩
    have dev : ∀ (rs : List PeerReq) (a : Iface), (rs.foldl applyPeerReq a).privateKey = a.privateKey ∧ (rs.foldl applyPeerReq a).listenPort = a.listenPort
        ∧ (rs.foldl applyPeerReq a).fwmark = a.fwmark := by
      intro rs
      induction rs with
      | nil => intro a; exact ⟨rfl, rfl, rfl⟩
      | cons r rs ih =>
        intro a
        have : (applyPeerReq a r).privateKey = a.privateKey ∧ (applyPeerReq a r).listenPort = a.listenPort ∧ (applyPeerReq a r).fwmark = a.fwmark := by
          simp only [applyPeerReq]; split <;> exact ⟨rfl, rfl, rfl⟩
        rw [List.foldl_cons, (ih _).1, (ih _).2.1, (ih _).2.2]; exact this
    rw [← h2]
    -- the two runs over the file's peers start from these states
    let a := (((removals (sort (origins { d0 with name := iface.take 15 } rt))).reverse.map removalEntry).map peerReqOf).foldl applyPeerReq
          (applyDevReq s (requestOf (syncPeers sort { d0 with name := iface.take 15 } rt)))
    let b := applyDevReq s (requestOf d0)
    have ea : applyReq s (requestOf (syncPeers sort { d0 with name := iface.take 15 } rt)) = (d0.peers.map peerReqOf).foldl applyPeerReq a :=
      applyReq_sync sort { d0 with name := iface.take 15 } rt s
    have eb : applyReq s (requestOf d0) = (d0.peers.map peerReqOf).foldl applyPeerReq b := rfl
    have eow : OwnersUpTo d0.peers a b := by
      intro n
      have hb : b.owner n = none := by simp [b, applyDevReq, requestOf, hf.1]
      rw [hb]
      cases hn : a.owner n with
      | none => exact .inl rfl
      | some k =>
        refine .inr ⟨rfl, ?_⟩
        simp only [a, fold_removals] at hn
        split at hn
        · cases hn
        · rename_i hno
          simp only [applyDevReq, syncPeers, requestOf, Bool.false_eq_true, if_false] at hn hno
          have hk := (hc rt hg k).1 (hwf n k hn)
          by_contra hcon
          apply hno
          refine ⟨k, List.mem_reverse.2 (sync_removals_complete hs { d0 with name := iface.take 15 } rt k hk ?_), hn⟩
          intro hk2
          simp only [peerKeys, List.mem_map] at hk2
          obtain ⟨p, hp, rfl⟩ := hk2
          exact hcon ⟨p, hp, rfl⟩
    have men : ∀ k (f : Peer → Prop) (req : PeerReq → Prop), (∀ p, f p → req (peerReqOf p)) → Mentions secs k f →
        ∃ r ∈ d0.peers.map peerReqOf, r.key = k ∧ req r := by
      rintro k f req hfr ⟨l, hl, hlk, hlf⟩
      refine ⟨peerReqOf (peerMeaning l), ?_, hlk, hfr _ hlf⟩
      rw [h2]; simp only [fileMeaning, List.map_map, List.mem_map]; exact ⟨l, hl, rfl⟩
    have hrr : ∀ r ∈ d0.peers.map peerReqOf, r.remove = false := by
      intro r hr; simp only [List.mem_map] at hr; obtain ⟨p, hp, rfl⟩ := hr; exact (hrm p hp).1
    simp only [ea, eb]
    refine ⟨?_, ?_, ?_, owners_converge _ _ _ hrm eow, ?_⟩
    · rw [(dev _ _).1, (dev _ _).1]; rw [(dev _ _).1]; simp [b, applyDevReq, syncPeers, requestOf, hf.2.1]
    · rw [(dev _ _).2.1, (dev _ _).2.1]; rw [(dev _ _).2.1]; simp [b, applyDevReq, syncPeers, requestOf, hf.2.2.1]
    · rw [(dev _ _).2.2, (dev _ _).2.2]; rw [(dev _ _).2.2]; simp [b, applyDevReq, syncPeers, requestOf, hf.2.2.2.1]
    · intro k
      refine ⟨?_, ?_, ?_⟩ <;> intro hm
      · refine field_converge (fun p => p.psk) (·.psk) ?_ k _ a b hrr (.inl (men k _ (fun r => r.psk.isSome = true) ?_ hm))
        · intro s r hr; simp [applyPeerReq, hr]
        · intro p hp; simp [peerReqOf, hp]
      · refine field_converge (fun p => p.endpoint) (·.endpoint) ?_ k _ a b hrr (.inl (men k _ (fun r => r.endpoint.isSome = true) ?_ hm))
        · intro s r hr; simp [applyPeerReq, hr]
        · intro p hp; simp [peerReqOf, hp]
      · refine field_converge (fun p => p.keepalive) (·.keepalive) ?_ k _ a b hrr (.inl (men k _ (fun r => r.keepalive.isSome = true) ?_ hm))
        · intro s r hr; simp [applyPeerReq, hr]
        · intro p hp; simp [peerReqOf, hp]

/-- C21. After syncconf the device settings, the owners of all networks (so every peer's allowed IPs) and, for each peer
of the file, every preshared key, endpoint and keepalive the file mentions for it, are what setconf of the same file
would give. -/
theorem c21_agrees_with_setconf (env : Env) (hM : 0xffffffff < env.ulongMax) (sort : List PubkeyOrigin → List PubkeyOrigin) (hs : IsSort sort)
    (ipc : Ipc) (iface path : CStr) (d : Device)
    (h : .set d ∈ (setconfMain env sort ipc [b!"syncconf", iface, path]).calls) :
    ∃ secs, FileGives (docNow env) env path secs ∧
      ∀ s, s.WF → Consistent ipc (iface.take 15) s →
        let sync := applyReq s (requestOf d)
        let setc := applyReq s (requestOf (fileMeaning false secs))
        sync.privateKey = setc.privateKey ∧ sync.listenPort = setc.listenPort ∧ sync.fwmark = setc.fwmark ∧ sync.owner = setc.owner ∧
        ∀ k,
          (Mentions secs k (·.flags.hasPresharedKey = true) → (sync.peers k).map (·.psk) = (setc.peers k).map (·.psk)) ∧
          (Mentions secs k (·.endpoint ≠ .unset) → (sync.peers k).map (·.endpoint) = (setc.peers k).map (·.endpoint)) ∧
          (Mentions secs k (·.flags.hasKeepalive = true) → (sync.peers k).map (·.keepalive) = (setc.peers k).map (·.keepalive)) := by
  obtain ⟨d0, hd0, -⟩ := syncconf_sends env sort ipc iface path d h
  obtain ⟨secs, h1, rfl⟩ := c14_read_sound env hM false path d0 hd0
  exact ⟨secs, h1, sync_agrees_with_setconf env sort hs ipc iface path d h secs hd0⟩

/-- The interface state behind `sampleIpc`: one peer with a keepalive of 25. -/
def sampleIface : Iface :=
  { peers := fun k => if k = sampleKey then some { keepalive := 25 } else none }

/-- An interface with one peer, the one of the sample file. -/
def sampleIpc : Ipc := ⟨fun _ => (0, some { peers := [{ publicKey := sampleKey, keepalive := 25, flags := { hasPublicKey := true, hasKeepalive := true } }] }), fun _ => 0⟩

/-- C21, finding: syncconf does not reset what the file does not mention. The interface's peer has a keepalive of 25, the
file lists the peer without a keepalive: setconf gives 0, syncconf leaves 25. -/
theorem c21_unmentioned_settings_stay_counterexample :
    ∃ d d', setconfMain (fileEnv ⟨sampleFile, none, true⟩) isort sampleIpc [b!"syncconf", b!"wg0", b!"f"] = ⟨.ok 0, [.get b!"wg0", .set d]⟩ ∧
      setconfMain (fileEnv ⟨sampleFile, none, true⟩) isort sampleIpc [b!"setconf", b!"wg0", b!"f"] = ⟨.ok 0, [.set d']⟩ ∧
      Consistent sampleIpc b!"wg0" sampleIface ∧ sampleIface.WF ∧
      ((applyReq sampleIface (requestOf d)).peers sampleKey).map (·.keepalive) = some 25 ∧
      ((applyReq sampleIface (requestOf d')).peers sampleKey).map (·.keepalive) = some 0 := by
  refine ⟨{ sampleConf with name := b!"wg0", flags := { sampleConf.flags with replacePeers := false } }, { sampleConf with name := b!"wg0" }, ?_, ?_, ?_, ?_, ?_, ?_⟩
  · have h : readConfigFile (fileEnv ⟨sampleFile, none, true⟩) (b!"syncconf" = b!"addconf") b!"f" = .ok sampleConf := by decide +kernel
    have h2 : syncPeers isort { sampleConf with name := copyName b!"wg0" } { peers := [{ publicKey := sampleKey, keepalive := 25, flags := { hasPublicKey := true, hasKeepalive := true } }] }
        = { sampleConf with name := b!"wg0", flags := { sampleConf.flags with replacePeers := false } } := by decide +kernel
    have h3 : ¬ sampleConf.peers = [] := by decide
    simp only [setconfMain, h, if_true, syncConf, sampleIpc, if_neg h3, List.cons_ne_nil, if_false, h2, sendDevice_eq]
    rfl
  · have h : readConfigFile (fileEnv ⟨sampleFile, none, true⟩) (b!"setconf" = b!"addconf") b!"f" = .ok sampleConf := by decide +kernel
    have hs : ¬ b!"setconf" = b!"syncconf" := by decide
    simp only [setconfMain, h, if_neg hs, sendDevice_eq]
    rfl
  · intro rt h k
    simp only [sampleIpc, Prod.mk.injEq, Option.some.injEq, true_and] at h
    subst h
    by_cases hk : k = sampleKey <;> simp [sampleIface, peerKeys, hk]
  · intro n k h; simp [sampleIface] at h
  · decide +kernel
  · decide +kernel

/-- C22. The result of applying what setconf sends does not depend on the prior state of the interface. -/
theorem c22_setconf_independent_of_past (env : Env) (sort : List PubkeyOrigin → List PubkeyOrigin) (ipc : Ipc) (iface path : CStr) (d : Device)
    (h : .set d ∈ (setconfMain env sort ipc [b!"setconf", iface, path]).calls) (s s' : Iface) :
    applyReq s (requestOf d) = applyReq s' (requestOf d) := by
  have e : (decide (b!"setconf" = b!"addconf")) = false := by decide
  have e2 : ¬ b!"setconf" = b!"syncconf" := by decide
  simp only [setconfMain, e] at h
  cases hr : readConfigFile env false path with
  | ok d0 =>
    simp only [hr, if_neg e2, sendDevice_eq, List.mem_singleton, IpcCall.set.injEq] at h
    have hf := c13_setconf_flags env path d0 hr
    subst h
    have : applyDevReq s (requestOf { d0 with name := copyName iface }) = applyDevReq s' (requestOf { d0 with name := copyName iface }) := by
      simp [applyDevReq, requestOf, hf.1, hf.2.1, hf.2.2.1, hf.2.2.2.1]
    simp only [applyReq, this]
  | _ => simp [hr] at h

/-- C22: setconf ends with exactly the file's peers too. -/
theorem c22_setconf_peers (env : Env) (hM : 0xffffffff < env.ulongMax) (sort : List PubkeyOrigin → List PubkeyOrigin) (ipc : Ipc) (iface path : CStr) (d : Device)
    (h : .set d ∈ (setconfMain env sort ipc [b!"setconf", iface, path]).calls) :
    ∃ secs, FileGives (docNow env) env path secs ∧ ∀ s k, ((applyReq s (requestOf d)).peers k).isSome = true ↔ k ∈ fileKeys secs := by
  have e : (decide (b!"setconf" = b!"addconf")) = false := by decide
  have e2 : ¬ b!"setconf" = b!"syncconf" := by decide
  simp only [setconfMain, e] at h
  cases hr : readConfigFile env false path with
  | ok d0 =>
    simp only [hr, if_neg e2, sendDevice_eq, List.mem_singleton, IpcCall.set.injEq] at h
    have hf := c13_setconf_flags env path d0 hr
    obtain ⟨secs, h1, h2⟩ := c14_read_sound env hM false path d0 hr
    refine ⟨secs, h1, fun s k => ?_⟩
    subst h
    rw [← fileKeys_eq false, ← h2]
    exact plain_final_peers { d0 with name := copyName iface } s hf.1 (fun p hp => (hf.2.2.2.2 p hp).2) k
  | _ => simp [hr] at h

-- the hypotheses of C19-C21 are met by the sample interface and file
example : IsSort isort ∧ Consistent sampleIpc b!"wg0" sampleIface ∧ sampleIface.WF ∧
    ∃ d, .set d ∈ (setconfMain (fileEnv ⟨sampleFile, none, true⟩) isort sampleIpc [b!"syncconf", b!"wg0", b!"f"]).calls := by
  obtain ⟨d, d', h1, -, h2, h3, -⟩ := c21_unmentioned_settings_stay_counterexample
  exact ⟨isort_isSort, h2, h3, d, by rw [h1]; simp⟩

end WG.Props
