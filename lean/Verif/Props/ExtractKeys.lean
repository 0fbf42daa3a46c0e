import Verif.Proof.ExtractKeys
/-!
C98 (contrib/extract-keys): the keys shown are those of the sessions in memory.
-/
namespace WG.Props
open WG.ExtractKeys WG.Spec WG.Spec.Sessions

/-- What /proc/net/udp says: a line with the names of the columns, and a line for each socket. -/
structure UdpTable (env : ExtractKeys.Env) (socks : List (SockLine × UInt64 × Option (UInt64 × CStr))) : Prop where
  text : ∃ header : CStr, header.length < 255 ∧ (∀ c ∈ header, c ≠ 10) ∧ env.udp = .ok (header ++ [10] ++ socks.flatMap fun s => s.1.text)
  lines : ∀ s ∈ socks, s.1.Proper s.2.1 ∧ SockIs env s.2.1 s.2.2

theorem findInterface_table {env : ExtractKeys.Env} {socks} (h : UdpTable env socks) (iface : CStr) :
    findInterface env iface = .ok (((socks.filterMap (·.2.2)).find? fun d => d.2 = iface).elim 0 (·.1)) := by
  obtain ⟨header, h1, h2, h3⟩ := h.text
  unfold findInterface
  rw [h3]
  simp only
  rw [fgets_line255 header _ h1 h2]
  refine findLoop_lines socks h.lines _ ?_
  have : ∀ l : List (SockLine × UInt64 × Option (UInt64 × CStr)), l.length ≤ (l.flatMap fun s => s.1.text).length := by
    intro l
    induction l with
    | nil => simp
    | cons s l ih => rw [List.flatMap_cons, List.length_append, List.length_cons, text_front, List.length_append]; simp only [List.length_cons, List.length_nil]; omega
  have := this socks
  rw [List.length_append]; omega

/-- C98. The keys of all sessions of all peers of the interface are shown, in order, and nothing else: for each session the key for received packets with the
local index and the key for sent packets with the remote one. -/
theorem c98_keys (env : ExtractKeys.Env) (hk : env.kmem = .ok ()) (socks : List (SockLine × UInt64 × Option (UInt64 × CStr))) (hu : UdpTable env socks)
    (iface : CStr) (dev : UInt64) (hd : (socks.filterMap (·.2.2)).find? (fun d => d.2 = iface) = some (dev, iface)) (peers : List Sessions.Peer)
    (hr : RingFrom env (dev + env.lay.devicePeers) (dev + env.lay.devicePeers) peers) (fuel : Nat) (hf : peers.length < fuel) (more : List CStr) :
    ExtractKeys.main env fuel (iface :: more) = (((peers.flatMap Peer.sessions).map Session.text).flatten,
      .exit (if peers.flatMap Peer.sessions = [] then 126 else 0)) := by
  have hne : dev ≠ 0 := by
    have hm := List.mem_of_find?_eq_some hd
    obtain ⟨s, hs, he⟩ := List.mem_filterMap.1 hm
    have h2 := (hu.lines s hs).2
    rw [he] at h2
    cases h2 with
    | device _ _ h _ _ _ => exact h
  obtain ⟨first, h1, h2⟩ := walk_ring hr fuel [] hf
  unfold ExtractKeys.main
  rw [hk]
  simp only
  rw [findInterface_table hu, hd]
  simp only [Option.elim_some]
  simp only [hne, if_false, h1, h2]
  simp only [List.nil_append]
  congr 2
  by_cases h : peers.flatMap Peer.sessions = []
  · simp [h]
  · rw [if_neg h, if_neg]
    obtain ⟨s, l, hsl⟩ := List.exists_cons_of_ne_nil h
    rw [hsl]
    simp [Session.text]

/-- C98. If no socket is that of an interface of this name, nothing is shown and the status says so; no name at all is a usage error. -/
theorem c98_missing (env : ExtractKeys.Env) (hk : env.kmem = .ok ()) (socks : List (SockLine × UInt64 × Option (UInt64 × CStr))) (hu : UdpTable env socks)
    (iface : CStr) (hd : ∀ s ∈ socks, ∀ d, s.2.2 = some d → d.2 ≠ iface) (fuel : Nat) (more : List CStr) :
    ExtractKeys.main env fuel (iface :: more) = ([], .exit 57) ∧ ExtractKeys.main env fuel [] = ([], .exit 22) := by
  refine ⟨?_, rfl⟩
  unfold ExtractKeys.main
  rw [hk]
  simp only
  have : (socks.filterMap (·.2.2)).find? (fun d => d.2 = iface) = none := by
    rw [List.find?_eq_none]
    intro d hm
    obtain ⟨s, hs, he⟩ := List.mem_filterMap.1 hm
    simpa using hd s hs d he
  rw [findInterface_table hu, this]
  simp

/-- C98. Nothing is shown before the interface is found: if /dev/kmem or /proc/net/udp cannot be opened the status is the error. -/
theorem c98_open (env : ExtractKeys.Env) (iface : CStr) (fuel : Nat) (e : Nat) :
    (env.kmem = .error e → ExtractKeys.main env fuel [iface] = ([], .exit e)) ∧
    (env.kmem = .ok () → env.udp = .error e → ExtractKeys.main env fuel [iface] = ([], .exit e)) := by
  refine ⟨fun h => by simp [ExtractKeys.main, h], fun h h2 => by simp [ExtractKeys.main, h, findInterface, h2]⟩

/-! ### Examples -/

/-- A small memory: pieces at addresses. -/
def memoryOf (l : List (Nat × List UInt8)) (a : UInt64) : Option UInt8 :=
  (l.find? fun p => decide (p.1 ≤ a.toNat) && decide (a.toNat < p.1 + p.2.length)).bind fun p => p.2[a.toNat - p.1]?

def exLayout : Layout where
  sockDevice := 8
  deviceName := UInt64.ofNat (2 ^ 64 - 32)
  ifnamsiz := 16
  devicePeers := 64
  peersPeer := UInt64.ofNat (2 ^ 64 - 24)
  peerCurrent := 64
  peerPrevious := 72
  peerNext := 80
  keyLocal := 0
  keyRemote := 4
  keySending := 8
  keyReceiving := 40

def exSession : Session := ⟨0x01020304, 0xfeedc0de, Vector.ofFn fun i => UInt8.ofNat (i.val + 1), Vector.ofFn fun i => UInt8.ofNat (200 - i.val)⟩

/-- A socket at 0x1000, the device at 0x2000, a peer at 0x3000 with one session, at 0x4000. -/
def exMemory : List (Nat × List UInt8) :=
  [(0x1008, lowFirst 8 0x2000), (0x2000 - 32, b!"wg0" ++ List.replicate 13 0), (0x2000 + 64, lowFirst 8 0x3018), (0x3018, lowFirst 8 0x2040),
   (0x3000 + 64, lowFirst 8 0x4000), (0x3000 + 72, lowFirst 8 0), (0x3000 + 80, lowFirst 8 0),
   (0x4000, lowFirst 4 0x01020304 ++ lowFirst 4 0xfeedc0de ++ exSession.sending.toList ++ exSession.receiving.toList)]

def exLineText : SockLine := ⟨b!"  102: 00000000:CA6C 00000000:0000 07 00000000:00000000 00:00000000 00000000     0        0 34 2", b!"0000000000001000", b!"0", 8⟩

def exKeys : ExtractKeys.Env where
  mem := memoryOf exMemory
  errno _ := 14
  kmem := .ok ()
  udp := .ok (b!"  sl  local_address rem_address\n" ++ exLineText.text)
  big := false
  lay := exLayout

theorem exKeys_table : UdpTable exKeys [(exLineText, 0x1000, some (0x2000, b!"wg0"))] where
  text := ⟨b!"  sl  local_address rem_address", by decide, by decide, by decide +kernel⟩
  lines := by
    intro s hs
    rw [List.mem_singleton] at hs
    subst hs
    refine ⟨⟨by decide, ⟨by decide, by decide, by decide +kernel⟩, ⟨by decide, by decide⟩, by decide +kernel⟩, ?_⟩
    exact .device (rest := List.replicate 12 0) (by decide) (by unfold Pointer Stored; decide +kernel) (by decide) (by decide) (by decide)
      (by unfold Stored; decide +kernel)

theorem exKeys_ring : RingFrom exKeys 0x2040 0x2040 [⟨some exSession, none, none⟩] := by
  refine .cons (e := 0x3018) (by unfold Pointer Stored; decide +kernel) (by decide) ⟨⟨0x4000, by unfold Pointer Stored; decide +kernel, ?_⟩, ?_, ?_⟩
    (.nil (by unfold Pointer Stored; decide +kernel))
  · exact ⟨by decide, by unfold Stored; decide +kernel, by unfold Stored; decide +kernel, by unfold Stored; decide +kernel, by unfold Stored; decide +kernel⟩
  · show Pointer _ _ _; unfold Pointer Stored; decide +kernel
  · show Pointer _ _ _; unfold Pointer Stored; decide +kernel

example : ExtractKeys.main exKeys 2 [b!"wg0"] = (exSession.text, .exit 0) := by
  have := c98_keys exKeys rfl _ exKeys_table b!"wg0" 0x2000 rfl _ exKeys_ring 2 (by decide) []
  rw [this]
  simp [Peer.sessions]
example : ExtractKeys.main exKeys 2 [b!"wg1"] = ([], .exit 57) := (c98_missing exKeys rfl _ exKeys_table b!"wg1" (by
  intro s hs d hd; rw [List.mem_singleton] at hs; subst hs; injection hd with hd; subst hd; decide) 2 []).1

/-! ### Findings -/

theorem main_error {env : ExtractKeys.Env} {e : Stop} (hk : env.kmem = .ok ()) (iface : CStr) (h : findInterface env iface = .error e) (fuel : Nat) :
    ExtractKeys.main env fuel [iface] = ([], e) := by
  unfold ExtractKeys.main
  simp only [hk, h]

/-- The same, with a socket of something else before. -/
def exForeign : ExtractKeys.Env := { exKeys with
  mem := memoryOf ((0x5008, lowFirst 8 0x9000) :: exMemory)
  udp := .ok (b!"  sl  local_address rem_address\n" ++ { exLineText with addrText := b!"0000000000005000" }.text ++ exLineText.text) }

/-- A socket of something else is followed too: if what is found behind it cannot be read, the program ends, with the keys of the interface not shown. -/
theorem c98_counterexample_foreign : RingFrom exForeign 0x2040 0x2040 [⟨some exSession, none, none⟩] ∧
    ∀ fuel, ExtractKeys.main exForeign fuel [b!"wg0"] = ([], .exit 14) := by
  refine ⟨?_, main_error rfl _ (by
    have : (match findInterface exForeign b!"wg0" with | .error (.exit n) => n == 14 | _ => false) = true := by decide +kernel
    revert this
    split
    · rename_i h; intro hn; rw [h, beq_iff_eq.1 hn]
    · intro h; cases h)⟩
  refine .cons (e := 0x3018) (by unfold Pointer Stored; decide +kernel) (by decide) ⟨⟨0x4000, by unfold Pointer Stored; decide +kernel, ?_⟩, ?_, ?_⟩
    (.nil (by unfold Pointer Stored; decide +kernel))
  · exact ⟨by decide, by unfold Stored; decide +kernel, by unfold Stored; decide +kernel, by unfold Stored; decide +kernel, by unfold Stored; decide +kernel⟩
  · show Pointer _ _ _; unfold Pointer Stored; decide +kernel
  · show Pointer _ _ _; unfold Pointer Stored; decide +kernel

/-- After a read that is too short `errno` may be 0, and so is the status, with nothing shown. -/
theorem c98_counterexample_short : ∀ fuel, ExtractKeys.main { exKeys with mem := fun _ => none, errno := fun _ => 0 } fuel [b!"wg0"] = ([], .exit 0) :=
  main_error rfl _ (by
    have : (match findInterface { exKeys with mem := fun _ => none, errno := fun _ => 0 } b!"wg0" with | .error (.exit n) => n == 0 | _ => false) = true := by decide +kernel
    revert this
    split
    · rename_i h; intro hn; rw [h, beq_iff_eq.1 hn]
    · intro h; cases h)

/-- A peer that is removed while the program is at it points to itself (`list_del_init`): the program shows its sessions without end. -/
theorem c98_counterexample_removed (env : ExtractKeys.Env) (head e : UInt64) (p : Sessions.Peer) (h : Pointer env e e) (hne : e ≠ head) (hp : PeerAt env e p)
    (fuel : Nat) (out : CStr) :
    walkPeers env head fuel e out = (out ++ (List.replicate fuel (p.sessions.map Session.text).flatten).flatten, .error .running) := by
  induction fuel generalizing out with
  | zero => simp [walkPeers]
  | succ fuel ih =>
    rw [walkPeers, if_neg hne]
    simp only
    rw [printKeys_peer hp]
    simp only
    rw [readLong_pointer h]
    simp only
    rw [ih]
    simp [List.replicate_succ]

end WG.Props
