import Verif.Proof.PunchBoth
import Verif.Props.Encoding
/-!
# C94: the addresses of the peers

contrib/nat-hole-punching/nat-punch-client.c, alone and with the server of C93 at the other end. `main env n args` is the client after at most
`n` rounds; every theorem holds for all `n`, so for every moment of a run that need not end.
-/
namespace WG.Props.PunchClient
open WG.Spec WG.Spec.PunchClient WG.Spec.Punch WG.PunchClient WG.Punch

/-- The address the server was found at. -/
def serverIp (env : WG.PunchClient.Env) (server : CStr) : List UInt8 := (env.reply [] (.lookup server)).out

theorem main_talk (env : WG.PunchClient.Env) (n : Nat) (server iface : CStr) (more : List CStr) (own : Key) (port : Nat) (peers : List Key)
    (hd : Interface env iface own port peers) :
    ∃ pre t, (main env n (server :: iface :: more)).1 = pre ++ t ∧ (∀ e ∈ pre, Quiet e) ∧
      Talk env ⟨iface, serverIp env server, port, own.toList⟩ (peers.map fun k => rfc4648 k.toList) t ∧
      (t ≠ [] → ∃ r, (.filter (program port (bigEndian (serverIp env server))), r) ∈ pre) := by
  rcases main_start env n server iface more own port peers hd with ⟨hq, -, -⟩ | ⟨pre, hq, hf, he⟩
  · exact ⟨_, [], (List.append_nil _).symm, hq, .nil, fun h => absurd rfl h⟩
  · obtain ⟨t, h1, h2⟩ := rounds_talk env ⟨iface, serverIp env server, port, own.toList⟩ n (peers.map fun k => ⟨rfc4648 k.toList, false⟩) pre
    refine ⟨pre, t, by rw [he, ← h1]; rfl, hq, ?_, fun _ => ⟨_, hf⟩⟩
    simpa [List.map_map, Function.comp_def] using h2

/-- The filter of the socket lets a packet through if and only if it comes from the address of the server, port 49918, and goes to the port of the
interface (in packets whose IP header has no options). -/
theorem c94_filter (packet ip : List UInt8) (port : Nat) (hip : ip.length = 4) (hp : port < 65536) :
    bpf packet (program port (bigEndian ip)) 0 ≠ 0 ↔
      24 ≤ packet.length ∧ (packet.drop 12).take 4 = ip ∧ bigEndian ((packet.drop 20).take 2) = 49918 ∧ bigEndian ((packet.drop 22).take 2) = port := by
  rw [filter_accepts packet ip port hip hp]
  constructor
  · rintro ⟨h1, h2, h3, h4⟩
    exact ⟨h1, h2, by rw [h3]; rfl, by rw [h4, be16_val _ hp]⟩
  · rintro ⟨h1, h2, h3, h4⟩
    refine ⟨h1, h2, bigEndian_inj _ _ (by simp; omega) (by rw [h3]; rfl), bigEndian_inj _ _ (by simp [be16]; omega) (by rw [h4, be16_val _ hp])⟩

/-- Every packet that is sent is a request for a peer of the interface, with the key of the interface, from its port, to the server; and the filter for
the answers was installed before. -/
theorem c94_asks (env : WG.PunchClient.Env) (n : Nat) (server iface : CStr) (more : List CStr) (own : Key) (port : Nat) (peers : List Key)
    (hd : Interface env iface own port peers) (t1 t2 : List Ev) (p d : List UInt8) (r : Reply)
    (h : (main env n (server :: iface :: more)).1 = t1 ++ (.send p d, r) :: t2) :
    (∃ k ∈ peers, p = udp port 49918 (own.toList ++ k.toList) ∧ d = serverIp env server) ∧
    ∃ r, (.filter (program port (bigEndian (serverIp env server))), r) ∈ t1 := by
  obtain ⟨pre, t, he, hq, ht, hf⟩ := main_talk env n server iface more own port peers hd
  rw [h] at he
  have hsplit : ∃ t3, t1 = pre ++ t3 ∧ t = t3 ++ (.send p d, r) :: t2 := by
    rcases List.append_eq_append_iff.1 he with ⟨a, ha1, ha2⟩ | ⟨a, ha1, ha2⟩
    · cases a with
      | nil => exact ⟨[], by simpa using ha1.symm, by simpa using ha2.symm⟩
      | cons x a =>
        simp only [List.cons_append, List.cons.injEq] at ha2
        exact absurd rfl ((hq (.send p d, r) (by rw [ha1, ha2.1]; simp)).1 p d)
    · exact ⟨a, ha1, ha2⟩
  obtain ⟨t3, h1, h2⟩ := hsplit
  constructor
  · obtain ⟨k', hk, their, hu, h3, h4⟩ := talk_sends ht p d r (by rw [h2]; simp)
    obtain ⟨k, hkm, rfl⟩ := List.mem_map.1 hk
    rw [unbase64_key env hd.decodes] at hu
    cases hu
    exact ⟨k, hkm, by rw [h3, packet_eq _ _ _ (by simp) (by simp)], h4⟩
  · obtain ⟨r', hr⟩ := hf (by rw [h2]; simp)
    exact ⟨r', by rw [h1]; exact List.mem_append.2 (Or.inl hr)⟩

/-- A peer is changed only after the client asked for this very peer and then received a packet with six bytes or more behind the headers; it gets the
address in these bytes. -/
theorem c94_sets (env : WG.PunchClient.Env) (n : Nat) (server iface : CStr) (more : List CStr) (own : Key) (port : Nat) (peers : List Key)
    (hd : Interface env iface own port peers) (t1 t2 : List Ev) (c : CStr) (r : Reply) (hset : b!"wg set " <+: c)
    (h : (main env n (server :: iface :: more)).1 = t1 ++ (.run c, r) :: t2) :
    ∃ k ∈ peers, ∃ t0 r0 answer, t1 = t0 ++ [(.send (udp port 49918 (own.toList ++ k.toList)) (serverIp env server), r0), (.recv, answer)] ∧
      answer.failed = none ∧ 34 ≤ answer.out.length ∧ c = setEndpoint iface (rfc4648 k.toList) (placeIn answer.out) := by
  obtain ⟨pre, t, he, hq, ht, -⟩ := main_talk env n server iface more own port peers hd
  rw [h] at he
  have hsplit : ∃ t3, t1 = pre ++ t3 ∧ t = t3 ++ (.run c, r) :: t2 := by
    rcases List.append_eq_append_iff.1 he with ⟨a, ha1, ha2⟩ | ⟨a, ha1, ha2⟩
    · cases a with
      | nil => exact ⟨[], by simpa using ha1.symm, by simpa using ha2.symm⟩
      | cons x a =>
        simp only [List.cons_append, List.cons.injEq] at ha2
        have := (hq (.run c, r) (by rw [ha1, ha2.1]; simp)).2
        simp only [sets, List.filterMap_cons, if_pos hset, List.filterMap_nil] at this
        cases this
    · exact ⟨a, ha1, ha2⟩
  obtain ⟨t3, h1, h2⟩ := hsplit
  obtain ⟨k', hk, their, t0, r0, a, hu, k1, k2, k3, k4⟩ := talk_sets ht t3 t2 c r h2
  obtain ⟨k, hkm, rfl⟩ := List.mem_map.1 hk
  rw [unbase64_key env hd.decodes] at hu
  cases hu
  refine ⟨k, hkm, pre ++ t0, r0, a, ?_, k1, k2, k4⟩
  rw [h1, k3, packet_eq _ _ _ (by simp) (by simp), List.append_assoc]

/-- It ends with status 0 only when every peer has been given an address, each exactly once. -/
theorem c94_complete (env : WG.PunchClient.Env) (n : Nat) (server iface : CStr) (more : List CStr) (own : Key) (port : Nat) (peers : List Key)
    (hd : Interface env iface own port peers) (herr : ∀ h c, (env.reply h c).failed ≠ some 0)
    (h : (main env n (server :: iface :: more)).2 = .exit 0) :
    ∃ given : List (Key × Place), (given.map Prod.fst).Perm peers ∧
      sets (main env n (server :: iface :: more)).1 = given.map fun g => setEndpoint iface (rfc4648 g.1.toList) g.2 := by
  rcases main_start env n server iface more own port peers hd with ⟨-, hx, -⟩ | ⟨pre, hq, -, he⟩
  · exact absurd h (hx herr)
  · obtain ⟨t, h1, -⟩ := rounds_talk env ⟨iface, serverIp env server, port, own.toList⟩ n (peers.map fun k => ⟨rfc4648 k.toList, false⟩) pre
    obtain ⟨ds, k1, k2⟩ := rounds_complete env herr ⟨iface, serverIp env server, port, own.toList⟩ n
      (peers.map fun k => ⟨rfc4648 k.toList, false⟩) pre t (by rw [← h1, ← h, he]; rfl)
    have hp : ∀ l : List Key, pending (l.map fun k => (⟨rfc4648 k.toList, false⟩ : WG.PunchClient.Peer)) = l.map fun k => rfc4648 k.toList := by
      intro l
      induction l with
      | nil => rfl
      | cons k l ih => simp only [pending, List.map_cons, List.filter_cons, Bool.not_false, if_true] at ih ⊢; rw [ih]
    rw [hp] at k2
    have hsets : sets (main env n (server :: iface :: more)).1 = ds.map fun d => setEndpoint iface d.1 d.2 := by
      rw [he, show (rounds env ⟨iface, (env.reply [] (.lookup server)).out, port, own.toList⟩ n pre _).1 = pre ++ t from h1, sets_append,
        sets_quiet pre hq, k1]
      rfl
    -- the texts are those of keys
    have hkeys : ∀ ds : List (CStr × Place), (∀ d ∈ ds, ∃ k ∈ peers, d.1 = rfc4648 k.toList) →
        ∃ given : List (Key × Place), ds = given.map fun g => (rfc4648 g.1.toList, g.2) := by
      intro ds
      induction ds with
      | nil => exact fun _ => ⟨[], rfl⟩
      | cons d ds ih =>
        intro hds
        obtain ⟨k, -, hk⟩ := hds d (by simp)
        obtain ⟨g, hg⟩ := ih fun d hd => hds d (by simp [hd])
        refine ⟨(k, d.2) :: g, ?_⟩
        rw [List.map_cons, ← hg, ← hk]
    obtain ⟨given, rfl⟩ := hkeys ds (by
      intro d hdm
      have := k2.symm.subset (List.mem_map_of_mem hdm)
      obtain ⟨k, hk, hke⟩ := List.mem_map.1 this
      exact ⟨k, hk, hke.symm⟩)
    refine ⟨given, ?_, by rw [hsets, List.map_map]; rfl⟩
    have k3 : ((given.map Prod.fst).map fun k : Key => rfc4648 k.toList).Perm (peers.map fun k => rfc4648 k.toList) := by
      have := k2.symm
      rw [List.map_map] at this
      rw [List.map_map]
      exact this
    have inj : Function.Injective fun k : Key => rfc4648 k.toList := fun a b hab => key_inj hab
    exact (List.map_perm_map_iff inj).1 k3

/-- With the server at the other end of a line that loses, repeats and delays nothing: the address a peer gets is the one the server last heard this
peer from - whatever others send to the server in between, as long as it never hears more than 65536 keys. -/
theorem c94_right (env : WG.PunchClient.Env) (w : World) (hc : Connected env w) (n : Nat) (server iface : CStr) (more : List CStr) (own : Key) (port : Nat)
    (peers : List Key) (hd : Interface env iface own port peers) (hz : ∀ k ∈ peers, k.toList ≠ List.replicate 32 0)
    (all : List PubKey) (hown : own.toList ∈ all) (hall : ∀ n, ∀ k ∈ heard (requests (w.others n)), k ∈ all) (hfew : all.length ≤ 65536)
    (t1 t2 : List Ev) (c : CStr) (r : Reply) (hset : b!"wg set " <+: c)
    (h : (main env n (server :: iface :: more)).1 = t1 ++ (.run c, r) :: t2) :
    ∃ k ∈ peers, ∃ p, lastHeard (requests (arrived w 0 t1)) k.toList = some p ∧ c = setEndpoint iface (rfc4648 k.toList) p := by
  obtain ⟨k, hk, t0, r0, a, h1, h2, h3, h4⟩ := c94_sets env n server iface more own port peers hd t1 t2 c r hset h
  have hg := main_genuine env n (server :: iface :: more)
  have ha : a = env.reply (t0 ++ [(.send (udp port 49918 (own.toList ++ k.toList)) (serverIp env server), r0)]) .recv := by
    apply hg _ _ _ ((.run c, r) :: t2)
    rw [h, h1]
    simp
  have hpk := packet_eq port own.toList k.toList (by simp) (by simp)
  rw [← hpk] at ha h1
  have hw : Within w all own.toList := ⟨hown, hfew, hall⟩
  have hsends : ∀ p d r, (Call.send p d, r) ∈ t0 ++ [(.send (packet port own.toList k.toList) (serverIp env server), r0)] →
      ∃ port their, own.toList.length = 32 ∧ their.length = 32 ∧ p = packet port own.toList their := by
    intro p d r' hm
    have hm' : (Call.send p d, r') ∈ (main env n (server :: iface :: more)).1 := by
      rw [h, h1]
      simp only [List.mem_append, List.mem_cons, List.not_mem_nil, or_false] at hm ⊢
      rcases hm with hm | hm
      · exact Or.inl (Or.inl hm)
      · exact Or.inl (Or.inr (Or.inl hm))
    obtain ⟨u1, u2, hu⟩ := List.append_of_mem hm'
    obtain ⟨⟨k', -, hp, -⟩, -⟩ := c94_asks env n server iface more own port peers hd u1 u2 p d r' hu
    exact ⟨port, k'.toList, by simp, by simp, by rw [hp, packet_eq _ _ _ (by simp) (by simp)]⟩
  have hans := connected_answer hc hw t0 port k.toList (serverIp env server) r0 (by simp) (by simp) (hz k hk) (arrived_within hw _ 0 hsends)
  simp only at hans
  rw [hans] at ha
  have harr : arrived w 0 t1 = arrived w 0 (t0 ++ [(.send (packet port own.toList k.toList) (serverIp env server), r0)]) := by
    rw [h1, show t0 ++ [(Call.send (packet port own.toList k.toList) (serverIp env server), r0), (Call.recv, a)] =
      (t0 ++ [(Call.send (packet port own.toList k.toList) (serverIp env server), r0)]) ++ [(Call.recv, a)] by simp]
    exact arrived_quiet w _ 0 _ _ (by intro p d; simp)
  rw [harr]
  cases hl : lastHeard (requests (arrived w 0 (t0 ++ [(.send (packet port own.toList k.toList) (serverIp env server), r0)]))) k.toList with
  | none =>
    rw [hl] at ha
    rw [ha] at h3
    simp [answer, hc.1] at h3
  | some p =>
    refine ⟨k, hk, p, hl, ?_⟩
    obtain ⟨q, hq, rfl⟩ := lastHeard_mem _ _ _ hl
    obtain ⟨s4, s2⟩ := heard_sized hc _ 0 q hq
    rw [h4, ha, hl]
    simp only
    rw [placeIn_header _ _ (hc.1 _) s4 s2]

/-- When the server knows all peers beforehand and nothing fails, one round is enough: every peer has got its address and the client ends. -/
theorem c94_finishes (env : WG.PunchClient.Env) (w : World) (hc : Connected env w) (n : Nat) (server iface : CStr) (more : List CStr) (own : Key) (port : Nat)
    (peers : List Key) (hd : Interface env iface own port peers) (hz : ∀ k ∈ peers, k.toList ≠ List.replicate 32 0)
    (all : List PubKey) (hown : own.toList ∈ all) (hall : ∀ n, ∀ k ∈ heard (requests (w.others n)), k ∈ all) (hfew : all.length ≤ 65536)
    (hroot : env.uid = 0) (hok : ∀ h c, (env.reply h c).failed = none) (hknown : ∀ k ∈ peers, k.toList ∈ heard (requests (w.others 0))) :
    (main env (n + 1) (server :: iface :: more)).2 = .exit 0 := by
  rcases main_start env (n + 1) server iface more own port peers hd with ⟨-, -, hx⟩ | ⟨pre, hq, -, he⟩
  · exact absurd (hx hroot hok) id
  · rw [he]
    unfold rounds
    obtain ⟨ps', hr⟩ := round_finishes hc hok (s := ⟨iface, (env.reply [] (.lookup server)).out, port, own.toList⟩) (S := all) ⟨hown, hfew, hall⟩ (by simp)
      (peers.map fun k => ⟨rfc4648 k.toList, false⟩) (by
        intro p hp
        obtain ⟨k, hk, rfl⟩ := List.mem_map.1 hp
        exact ⟨k.toList, unbase64_key env hd.decodes k, by simp, hz k hk, hknown k hk⟩) pre (by
        intro p d r hm
        exact absurd rfl ((hq _ hm).1 p d))
    generalize round env _ pre _ = R at hr ⊢
    obtain ⟨h', res⟩ := R
    simp only at hr
    subst hr
    rfl

/-! ### Examples -/

def keyA : Key := Vector.replicate 32 1
def keyB : Key := Vector.replicate 32 2
def keyC : Key := Vector.replicate 32 3
def placeA : Place := ⟨[192, 0, 2, 1], [200, 10]⟩
def placeB : Place := ⟨[198, 51, 100, 7], [4, 210]⟩
def placeC : Place := ⟨[203, 0, 113, 9], [0, 99]⟩

/-- What `wg show wg0` says: key A, port 51210, peers B and C. -/
def demoShow (c : CStr) : List UInt8 :=
  if c = b!"wg show wg0 public-key" then rfc4648 keyA.toList ++ [10]
  else if c = b!"wg show wg0 listen-port" then decimal 51210 ++ [10]
  else if c = b!"wg show wg0 peers" then ([keyB, keyC].map fun k => rfc4648 k.toList ++ [10]).flatten
  else []

def pton (s : CStr) : Option (List UInt8) := (keyFromBase64 true s).map (·.toList)

/-- B and C have sent something to the server before A asks. -/
def demoWorld : World where
  others := fun n => if n = 0 then [.datagram (keyB.toList ++ keyA.toList) placeB, .datagram (keyC.toList ++ keyA.toList) placeC] else []
  me := placeA
  header := fun _ => List.replicate 28 0

def demoEnv : WG.PunchClient.Env where
  reply := fun h c =>
    match c with
    | .lookup _ => { out := [203, 0, 113, 1] }
    | .run c => { out := demoShow c }
    | .recv => { out := demoWorld.header h ++ (match (loop start (arrived demoWorld 0 h)).getLast? with
        | some [s] => s.data
        | _ => []) }
    | _ => {}
  pton := pton

theorem pton_decodes (k : Key) : pton (rfc4648 k.toList) = some k.toList := by
  unfold pton
  rw [← keyToBase64_rfc, WG.Props.c01_roundtrip]
  rfl

/-- The hypotheses of all theorems of this file are met. -/
theorem demoInterface : Interface demoEnv b!"wg0" keyA 51210 [keyB, keyC] where
  name := by decide
  few := by decide
  range := by decide
  keyIs := fun h => rfl
  portIs := fun h => rfl
  peersAre := fun h => rfl
  decodes := pton_decodes

theorem demoConnected : Connected demoEnv demoWorld := by
  refine ⟨fun _ => rfl, rfl, rfl, ?_, ?_⟩
  · intro n data p hm
    unfold demoWorld at hm
    simp only at hm
    split at hm
    · simp only [List.mem_cons, Recv.datagram.injEq, List.not_mem_nil, or_false] at hm
      rcases hm with ⟨-, rfl⟩ | ⟨-, rfl⟩ <;> exact ⟨rfl, rfl⟩
    · simp at hm
  · intro h p d r hl h72
    obtain ⟨h', rfl⟩ : ∃ h', h = h' ++ [(.send p d, r)] := by
      rcases List.eq_nil_or_concat h with rfl | ⟨h', e, rfl⟩
      · simp at hl
      · rw [List.concat_eq_append] at hl ⊢
        simp at hl
        exact ⟨h', by rw [hl]⟩
    have e := arrived_send demoWorld h' p d r
    have hq : request (.datagram (p.drop 8) demoWorld.me) = some ⟨demoWorld.me, (p.drop 8).take 32, ((p.drop 8).take 64).drop 32⟩ := by
      simp only [request]
      rw [if_pos (by simp; omega)]
    have hg : (loop start (arrived demoWorld 0 (h' ++ [(.send p d, r)]))).getLast? =
        some (turn (after start (arrived demoWorld 0 h' ++ demoWorld.others (countSends h'))) (.datagram (p.drop 8) demoWorld.me)).2 := by
      rw [e, loop_append]; simp [loop]
    rw [turn_answer _ _ _ hq] at hg
    exact ⟨_, hg, by
      show ({ out := _ ++ (match (loop start (arrived demoWorld 0 (h' ++ [(.send p d, r)]))).getLast? with
        | some [s] => s.data
        | _ => []) } : Reply) = _
      rw [hg]⟩

example : (main demoEnv 1 [b!"demo.wireguard.com", b!"wg0"]).2 = .exit 0 :=
  c94_finishes demoEnv demoWorld demoConnected 0 _ _ [] keyA 51210 [keyB, keyC] demoInterface (by decide +kernel)
    [keyA.toList, keyB.toList, keyC.toList] (by decide +kernel) (by
      intro n k hk
      unfold demoWorld at hk
      simp only at hk
      split at hk
      · revert hk
        rw [show heard (requests [Recv.datagram (keyB.toList ++ keyA.toList) placeB, .datagram (keyC.toList ++ keyA.toList) placeC]) =
          [keyB.toList, keyC.toList] by decide +kernel]
        intro hk
        simp at hk ⊢
        exact Or.inr hk
      · simp [requests, heard] at hk) (by decide) rfl (by
      intro h c
      cases c <;> rfl) (by decide +kernel)

/-- The texts, for B: its key and the address of C93. -/
example : setEndpoint b!"wg0" (rfc4648 keyB.toList) placeB =
    b!"wg set wg0 peer AgICAgICAgICAgICAgICAgICAgICAgICAgICAgICAgI= persistent-keepalive 25 endpoint 198.51.100.7:1234" := by decide +kernel

/-! ### Findings -/

/-- A network that gives the first answer, for B, a second time. -/
def repeating : WG.PunchClient.Env where
  reply := fun _ c =>
    match c with
    | .lookup _ => { out := [203, 0, 113, 1] }
    | .run c => { out := demoShow c }
    | .recv => { out := List.replicate 28 0 ++ placeB.ip ++ placeB.port }
    | _ => {}
  pton := pton

/-- An answer does not say which key it is about: when a datagram is repeated (or an old one comes late), C gets the address of B, for good. -/
theorem c94_counterexample_repeated :
    sets (main repeating 1 [b!"demo.wireguard.com", b!"wg0"]).1 =
      [setEndpoint b!"wg0" (rfc4648 keyB.toList) placeB, setEndpoint b!"wg0" (rfc4648 keyC.toList) placeB] ∧
    (main repeating 1 [b!"demo.wireguard.com", b!"wg0"]).2 = .exit 0 := by decide +kernel

/-- An interface `wg show` knows nothing about: NULL is decoded. -/
theorem c94_counterexample_unknown (env : WG.PunchClient.Env) (server iface : CStr) (n : Nat) (hroot : env.uid = 0)
    (hok : ∀ h c, (env.reply h c).failed = none) (hnone : ∀ h c, (env.reply h (.run c)).out = []) :
    (main env n [server, iface]).2 = .crash := by
  unfold main
  simp [hroot, hok, hnone, readPeers, identify, firstLine]

/-- 65536 peers or more: `peers` overflows. -/
theorem c94_counterexample_many (env : WG.PunchClient.Env) (server iface : CStr) (n : Nat) (hroot : env.uid = 0)
    (hok : ∀ h c, (env.reply h c).failed = none) (peers : List Key) (hmany : 65536 ≤ peers.length)
    (hp : ∀ h, env.reply h (.run (b!"wg show " ++ iface ++ b!" peers")) = { out := (peers.map fun k => rfc4648 k.toList ++ [10]).flatten })
    (hname : iface.length ≤ 1024) : (main env n [server, iface]).2 = .crash := by
  have hlim : limited (b!"wg show " ++ iface ++ b!" peers") = b!"wg show " ++ iface ++ b!" peers" := limited_short _ (by simp; omega)
  have e : (peers.map fun k => rfc4648 k.toList ++ [10]).flatten = ((peers.map fun k => rfc4648 k.toList).map (· ++ [10])).flatten := by
    rw [List.map_map]; rfl
  have hr : ∀ f, ((peers.map fun k => rfc4648 k.toList).map (· ++ [10])).flatten.length ≤ f →
      readPeers f 0 ((peers.map fun k => rfc4648 k.toList).map (· ++ [10])).flatten = none := by
    intro f hf
    rw [readPeers_lines _ _ f 0 hf, if_neg]
    · rintro (h | h)
      · simp [maxPeers] at h; omega
      · simp at h; subst h; simp at hmany
    · intro k hk
      obtain ⟨k, -, rfl⟩ := List.mem_map.1 hk
      exact ⟨WG.Reresolve.key_length k, fun c hc => ⟨(rfc4648_chars _ c hc).2.2.1, (rfc4648_chars _ c hc).1⟩⟩
  unfold main
  simp only [hroot, ne_eq, not_true_eq_false, if_false, hok, hlim, hp, e, hr _ (Nat.le_refl _)]

end WG.Props.PunchClient
