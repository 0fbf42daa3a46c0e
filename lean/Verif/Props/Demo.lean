import Verif.Proof.Demo
import Verif.Proof.Resolve
import Mathlib.Data.List.MinMax
/-!
# C95: every client of the demo server has an address of its own

contrib/ncat-client-server/server.sh, and the line of client.sh that reads its answer. Proved for every sequence of connections, whatever the clients
send, with any handshakes between them; for connections that overlap, what remains true, and what does not.
-/
namespace WG.Props.Demo
open WG.Demo WG.Spec WG.Spec.Demo

/-- Different keys have different texts. -/
theorem same {k k' : Key} (h : rfc4648 k.toList = rfc4648 k'.toList) : k = k' := by
  rw [← keyToBase64_rfc, ← keyToBase64_rfc] at h
  have := (keyFromBase64_some true (keyToBase64 k') k').2 rfl
  rw [← h, (keyFromBase64_some true (keyToBase64 k) k).2 rfl] at this
  exact Option.some.inj this

/-- In every state the interface can get into, every peer has one address, none has the address of another, and there are at most 253. -/
theorem c95_fair {oldest : Oldest} (ho : IsOldest oldest) {pub : Key} {port : Nat} {d : WG.Demo.Iface} (h : Reaches oldest pub port d) : Fair d :=
  reaches_fair ho h

/-- A client that sends its key gets the key and the port of the server and an address, which is now its own and nobody else's. All other peers
keep theirs, but if there are already 253, one of them, with which no other handshake was longer ago, is removed. -/
theorem c95_client {oldest : Oldest} (ho : IsOldest oldest) {pub : Key} {port : Nat} {d : WG.Demo.Iface} (h : Reaches oldest pub port d) (k : Key)
    (rest : List UInt8) : let r := session oldest pub port d (rfc4648 k.toList ++ 10 :: rest)
    (∃ h, 2 ≤ h ∧ h ≤ 254 ∧ addressOf r.1 k = some h ∧
      clientReads r.2 = some (rfc4648 pub.toList, decimal port, b!"192.168.4." ++ decimal h) ∧ ∀ p ∈ r.1, h ∈ p.hosts → p.key = k) ∧
    (∀ p ∈ r.1, p.key ≠ k → p ∈ d) ∧
    ((∀ p ∈ d, p.key ≠ k → p ∈ r.1) ∨
      d.length = 253 ∧ ∃ old ∈ d, (∀ q ∈ d, old.handshake ≤ q.handshake) ∧ ∀ p ∈ d, p.key ≠ k → (p ∈ r.1 ↔ p ≠ old)) := by
  intro r
  have hF := reaches_fair ho h
  have hF' : Fair r.1 := fair_session ho pub port hF _
  have hr := fair_sublist hF (makeRoom_sublist oldest d)
  rcases session_cases ho pub port hF (rfc4648 k.toList ++ 10 :: rest) with ⟨k', i, hk, h2, h254, hf, -, he⟩ | ⟨hk, -⟩
  · rw [readLine_key] at hk
    have hk : k' = k := same hk.symm
    subst hk
    have he : r = _ := he
    rw [he] at hF' ⊢
    obtain ⟨g1, g2, p, hp, hpk, hph⟩ := give_mem (k := k') hf
    refine ⟨⟨i, h2, h254, ?_, client_reads pub port i, ?_⟩, fun q hq hne => (makeRoom_sublist oldest d).subset (g1 q hq hne), ?_⟩
    · have := addressOf_eq hF' hp hph
      rw [hpk] at this
      exact this
    · intro q hq hi
      by_contra hne
      exact hf ((mem_used _ i).2 ⟨q, g1 q hq hne, hi⟩)
    · by_cases hl : d.length < 253
      · left
        intro q hq hne
        exact g2 q (by rw [makeRoom_small oldest d hl]; exact hq) hne
      · right
        have hl : d.length = 253 := by have := hF.2.2; omega
        obtain ⟨old, ho1, ho2, ho3, ho4⟩ := makeRoom_full ho hF hl
        refine ⟨hl, old, ho1, ho2, ?_⟩
        intro q hq hne
        constructor
        · rintro hm rfl; exact ho3 (g1 q hm hne)
        · intro hqo; exact g2 q (ho4 q hq hqo) hne
  · exact absurd (readLine_key k rest) (hk k)

/-- A client that sends anything else is told so; nobody gets an address or another address. -/
theorem c95_refused {oldest : Oldest} (ho : IsOldest oldest) {pub : Key} {port : Nat} {d : WG.Demo.Iface} (h : Reaches oldest pub port d) (input : List UInt8)
    (hi : ∀ k : Key, readLine input ≠ rfc4648 k.toList) : let r := session oldest pub port d input
    clientReads r.2 = none ∧ (∀ p ∈ r.1, p ∈ d) ∧ (d.length < 253 → r.1 = d) := by
  intro r
  rcases session_cases ho pub port (reaches_fair ho h) input with ⟨k, -, hk, -⟩ | ⟨-, he⟩
  · exact absurd hk (hi k)
  · have he : r = _ := he
    rw [he]
    exact ⟨show clientReads b!"ERROR\n" = none by decide, fun p hp => (makeRoom_sublist oldest d).subset hp, makeRoom_small oldest d⟩

/-- While there are fewer than 253 peers, a new client gets the lowest free address. -/
theorem c95_lowest {oldest : Oldest} (ho : IsOldest oldest) {pub : Key} {port : Nat} {d : WG.Demo.Iface} (h : Reaches oldest pub port d) (hl : d.length < 253)
    (k : Key) (rest : List UInt8) (h' : Nat) (ha : addressOf (session oldest pub port d (rfc4648 k.toList ++ 10 :: rest)).1 k = some h') :
    ∀ j, 2 ≤ j → j < h' → ∃ p ∈ d, j ∈ p.hosts := by
  have hF := reaches_fair ho h
  have hF' : Fair (session oldest pub port d (rfc4648 k.toList ++ 10 :: rest)).1 := fair_session ho pub port hF _
  rcases session_cases ho pub port hF (rfc4648 k.toList ++ 10 :: rest) with ⟨k', i, hk, h2, h254, hf, hlow, he⟩ | ⟨hk, -⟩
  · rw [readLine_key] at hk
    have hk : k' = k := same hk.symm
    subst hk
    rw [he] at hF' ha
    obtain ⟨-, -, p, hp, hpk, hph⟩ := give_mem (k := k') hf
    have := addressOf_eq hF' hp hph
    rw [hpk, ha] at this
    cases this
    rw [makeRoom_small oldest d hl] at hlow
    intro j hj hji
    exact (mem_used d j).1 (hlow j hj hji)
  · exact absurd (readLine_key k rest) (hk k)

/-- However connections overlap, no address is ever that of two peers. -/
theorem c95_never_shared {oldest : Oldest} {d : WG.Demo.Iface} (h : Interleaved oldest d) :
    (∀ p ∈ d, p.hosts.length ≤ 1) ∧ d.Pairwise fun p q => p.key ≠ q.key ∧ ∀ h ∈ p.hosts, h ∉ q.hosts := interleaved_alone h

/-! ### What is not true -/

/-- Two connections at once may both be told 192.168.4.2; the one that comes first is left without an address. -/
theorem c95_counterexample_race {oldest : Oldest} (k k' : Key) (hne : k ≠ k') : nextIp [] = some 2 ∧
    Interleaved oldest (give (give [] k 2) k' 2) ∧ addressOf (give (give [] k 2) k' 2) k = none ∧ addressOf (give (give [] k 2) k' 2) k' = some 2 := by
  have h0 : nextIp [] = some 2 := by decide +kernel
  have e : give (give [] k 2) k' 2 = [⟨k, [], 0⟩, ⟨k', [2], 0⟩] := by
    simp [give, hne]
  refine ⟨h0, .gives (.gives .fresh .fresh k 2 h0) .fresh k' 2 h0, ?_, ?_⟩
  · rw [e]; simp [addressOf]
  · rw [e]; simp [addressOf, hne]

/-- When there are 253 peers, also a client that sends no key makes the server remove one. -/
theorem c95_counterexample_garbage {oldest : Oldest} (ho : IsOldest oldest) {pub : Key} {port : Nat} {d : WG.Demo.Iface} (h : Reaches oldest pub port d)
    (hl : d.length = 253) : ∃ p ∈ d, p ∉ (session oldest pub port d b!"\n").1 := by
  have hF := reaches_fair ho h
  obtain ⟨p, hp, -, hn, -⟩ := makeRoom_full ho hF hl
  refine ⟨p, hp, ?_⟩
  rcases session_cases ho pub port hF b!"\n" with ⟨k, -, hk, -⟩ | ⟨-, he⟩
  · exfalso
    have h1 := keyToBase64_length k
    rw [keyToBase64_rfc, ← hk] at h1
    revert h1; decide
  · rw [he]; exact hn

/-- A client that connects again, with the same key, gets another address. -/
theorem c95_counterexample_again {oldest : Oldest} (pub k : Key) (port : Nat) :
    let d := (session oldest pub port [] (rfc4648 k.toList ++ [10])).1
    addressOf d k = some 2 ∧ addressOf (session oldest pub port d (rfc4648 k.toList ++ [10])).1 k = some 3 := by
  have h0 : nextIp [] = some 2 := by decide +kernel
  have hk := (keyFromBase64_some true (rfc4648 k.toList) k).2 (by rw [keyToBase64_rfc])
  have hr := readLine_key k []
  have e1 : (session oldest pub port [] (rfc4648 k.toList ++ [10])).1 = [⟨k, [2], 0⟩] := by
    simp [session, assign, makeRoom, h0, hr, hk, give]
  have h1 : nextIp [⟨k, [2], 0⟩] = some 3 := by
    have one : ∀ p ∈ ([⟨k, [2], 0⟩] : WG.Demo.Iface), p.hosts.length ≤ 1 := by simp
    obtain ⟨i, hi⟩ := nextIp_exists [⟨k, [2], 0⟩] one (by simp)
    obtain ⟨a, b, c, e⟩ := nextIp_some _ one i hi
    rw [hi]
    simp only [used, List.flatMap_cons, List.flatMap_nil, List.append_nil, List.mem_singleton] at c e
    by_cases h3 : i ≤ 3
    · congr 1; omega
    · have := e 3 (by omega) (by omega); omega
  intro d
  have hd : d = _ := e1
  rw [hd]
  refine ⟨by simp [addressOf], ?_⟩
  simp [session, assign, makeRoom, h1, hr, hk, give, addressOf]

/-- On a full server, a client that was just given an address loses it to the next one, if it has not yet sent anything and all others have. -/
theorem c95_counterexample_newest {oldest : Oldest} (ho : IsOldest oldest) {pub : Key} {port : Nat} {d : WG.Demo.Iface} (h : Reaches oldest pub port d)
    (hl : d.length = 253) (hd : ∀ p ∈ d, 0 < p.handshake) (k k' : Key) (hk : ∀ p ∈ d, p.key ≠ k) (hne : k' ≠ k) :
    let d1 := (session oldest pub port d (rfc4648 k.toList ++ [10])).1
    addressOf d1 k ≠ none ∧ addressOf (session oldest pub port d1 (rfc4648 k'.toList ++ [10])).1 k = none := by
  have hF := reaches_fair ho h
  have hr := fair_sublist hF (makeRoom_sublist oldest d)
  obtain ⟨p, hp, -, hn, hrest⟩ := makeRoom_full ho hF hl
  have hlen : 252 ≤ (makeRoom oldest d).length := by
    have hnd : d.Nodup := hF.2.1.imp (by rintro a b ⟨hab, -⟩ rfl; exact hab rfl)
    have hsub : d ⊆ p :: makeRoom oldest d := by
      intro q hq
      by_cases hqp : q = p
      · simp [hqp]
      · exact List.mem_cons_of_mem _ (hrest q hq hqp)
    have := (hnd.subperm hsub).length_le
    simp at this
    omega
  intro d1
  have hF1 : Fair d1 := fair_session ho pub port hF _
  have hadd : ∃ i, d1 = makeRoom oldest d ++ [⟨k, [i], 0⟩] := by
    rcases session_cases ho pub port hF (rfc4648 k.toList ++ [10]) with ⟨k1, i, hk1, h2, h254, hf, -, he⟩ | ⟨hk1, -⟩
    · have hk1 : k1 = k := same (by rw [← hk1]; exact readLine_key k [])
      subst hk1
      refine ⟨i, ?_⟩
      show (session oldest pub port d _).1 = _
      rw [he]
      show give _ _ _ = _
      rw [give_free _ _ _ hf, if_neg]
      intro hc
      obtain ⟨q, hq, hqk⟩ := List.any_eq_true.1 hc
      exact hk q ((makeRoom_sublist oldest d).subset hq) (by simpa using hqk)
    · exact absurd (readLine_key k []) (hk1 k)
  obtain ⟨i, hd1⟩ := hadd
  have hmem : (⟨k, [i], 0⟩ : WG.Demo.Peer) ∈ d1 := by rw [hd1]; simp
  have hold : ∀ q ∈ d1, q.handshake = 0 → q = ⟨k, [i], 0⟩ := by
    intro q hq h0
    rw [hd1] at hq
    rcases List.mem_append.1 hq with hq | hq
    · have := hd q ((makeRoom_sublist oldest d).subset hq); omega
    · simpa using hq
  have hl1 : d1.length = 253 := by
    have := hF1.2.2
    rw [hd1] at this ⊢
    simp at this ⊢
    omega
  obtain ⟨old, ho1, ho2, ho3, ho4⟩ := makeRoom_full ho hF1 hl1
  have hoe : old = ⟨k, [i], 0⟩ := hold old ho1 (by have := ho2 _ hmem; simpa using this)
  refine ⟨?_, ?_⟩
  · have := addressOf_eq hF1 hmem (i := i) rfl
    show addressOf d1 k ≠ none
    rw [show addressOf d1 k = some i from this]
    simp
  · have hgone : ∀ q ∈ makeRoom oldest d1, q.key ≠ k := by
      intro q hq hqk
      have h1 := find_unique hF1 q ((makeRoom_sublist oldest d1).subset hq)
      have h2 := find_unique hF1 _ hmem
      rw [hqk] at h1
      rw [show d1.find? (fun q => decide (q.key = k)) = _ from h2] at h1
      rw [← Option.some.inj h1] at hq
      rw [hoe] at ho3
      exact ho3 hq
    have key : ∀ q ∈ (session oldest pub port d1 (rfc4648 k'.toList ++ [10])).1, q.key ≠ k := by
      rcases session_cases ho pub port hF1 (rfc4648 k'.toList ++ [10]) with ⟨k1, j, hk1, -, -, hf, -, he⟩ | ⟨hk1, -⟩
      · have hk1 : k1 = k' := same (by rw [← hk1]; exact readLine_key k' [])
        subst hk1
        rw [he]
        intro q hq hqk
        exact hgone q ((give_mem hf).1 q hq (by rw [hqk]; exact hne.symm)) hqk
      · exact absurd (readLine_key k' []) (hk1 k')
    unfold addressOf
    rw [List.find?_eq_none.2 (by intro q hq; simpa using key q hq)]
    rfl

/-! ### A concrete case -/

/-- The first of the peers with the oldest handshake, as `sort -s` would give. -/
def firstOldest : Oldest := fun d => (d.argmin (·.handshake)).map (·.key)

theorem firstOldest_is : IsOldest firstOldest := by
  intro d hd
  cases h : d.argmin (·.handshake) with
  | none => exact absurd (List.argmin_eq_none.1 h) hd
  | some p => exact ⟨p, List.argmin_mem h, by simp [firstOldest, h], fun q hq => List.le_of_mem_argmin hq h⟩

/-- The states with any number of peers are reached: after any list of different keys, all are there. -/
theorem reached (pub : Key) (port : Nat) (keys : List Key) (hn : keys.Nodup) (hl : keys.length ≤ 253) :
    ∃ d, Reaches firstOldest pub port d ∧ d.map (·.key) = keys := by
  induction keys using List.reverseRecOn with
  | nil => exact ⟨[], .fresh, rfl⟩
  | append_singleton ks k ih =>
    have hn' := List.nodup_append.1 hn
    simp at hl
    obtain ⟨d, hd, he⟩ := ih hn'.1 (by omega)
    refine ⟨_, .connection hd (rfc4648 k.toList ++ [10]), ?_⟩
    have hlen : d.length < 253 := by rw [← List.length_map (f := (·.key)), he]; omega
    have hnk : ∀ p ∈ d, p.key ≠ k := by
      intro p hp hc
      exact hn'.2.2 k (by rw [← he]; exact List.mem_map.2 ⟨p, hp, hc⟩) k (by simp) rfl
    rcases session_cases firstOldest_is pub port (reaches_fair firstOldest_is hd) (rfc4648 k.toList ++ [10]) with ⟨k1, i, hk1, -, -, hf, -, hs⟩ | ⟨hk1, -⟩
    · have hk1 : k1 = k := same (by rw [← hk1]; exact readLine_key k [])
      subst hk1
      rw [hs]
      rw [makeRoom_small _ d hlen] at hf ⊢
      show (give d k1 i).map _ = _
      rw [give_free _ _ _ hf, if_neg, List.map_append, he]
      · rfl
      · intro hc
        obtain ⟨q, hq, hqk⟩ := List.any_eq_true.1 hc
        exact hnk q hq (by simpa using hqk)
    · exact absurd (readLine_key k []) (hk1 k)

/-- … and handshakes with all of them: the hypotheses of `c95_counterexample_newest` are met. -/
theorem reached_busy (pub : Key) (port : Nat) (keys : List Key) (hn : keys.Nodup) (hl : keys.length ≤ 253) :
    ∃ d, Reaches firstOldest pub port d ∧ d.map (·.key) = keys ∧ ∀ p ∈ d, 0 < p.handshake := by
  obtain ⟨d, hd, he⟩ := reached pub port keys hn hl
  refine ⟨d.map fun p => { p with handshake := 1 }, .traffic hd ?_, ?_, ?_⟩
  · unfold Handshakes; rw [List.map_map]; rfl
  · rw [List.map_map, ← he]; rfl
  · intro p hp
    obtain ⟨q, -, rfl⟩ := List.mem_map.1 hp
    exact Nat.one_pos

end WG.Props.Demo
