import Verif.Proof.Punch
/-!
# C93: where a peer was last heard from

contrib/nat-hole-punching/nat-punch-server.c. Proved for every history of datagrams and failures of `recvfrom`.
-/
namespace WG.Props.Punch
open WG.Punch WG.Spec.Punch

theorem loop_last (rs : List Recv) (r : Recv) : (loop start (rs ++ [r])).getLast? = some (turn (after start rs) r).2 := by
  rw [loop_append]
  simp [loop]

/-- A request is answered at once, to its sender and nobody else, with the address the wanted key was last heard from, or with nothing if it was
never heard - as long as no more than 65536 keys have been heard and the wanted key is not all zeros. -/
theorem c93_answers (rs : List Recv) (r : Recv) (q : Request) (h : request r = some q)
    (hroom : (heard (requests rs ++ [q])).dedup.length ≤ 65536) (hkey : q.wanted ≠ List.replicate 32 0) :
    (loop start (rs ++ [r])).getLast? = some [⟨answer (lastHeard (requests rs ++ [q]) q.wanted), q.sender⟩] := by
  rw [loop_last, turn_answer rs r q h]
  obtain ⟨x, z, hr⟩ := room_queue (requests rs ++ [q]) hroom
  rw [room_known hr q.wanted hkey]

/-- Without these conditions: the answer is that of a queue of 65536 places. -/
theorem c93_exact (rs : List Recv) (r : Recv) (q : Request) (h : request r = some q) :
    (loop start (rs ++ [r])).getLast? = some [⟨answer (known (queue firstQueue (requests rs ++ [q])) q.wanted), q.sender⟩] := by
  rw [loop_last, turn_answer rs r q h]

/-- A datagram that is too short, or a failure of `recvfrom`, is not answered and changes no other answer. -/
theorem c93_ignores (rs rs' : List Recv) (r : Recv) (h : request r = none) :
    loop start (rs ++ r :: rs') = loop start rs ++ [] :: loop (after start rs) rs' ∧
    loop start (rs ++ rs') = loop start rs ++ loop (after start rs) rs' := by
  refine ⟨?_, loop_append _ _ _⟩
  rw [loop_append]
  show _ ++ (turn _ r).2 :: loop (turn _ r).1 rs' = _
  rw [turn_other _ r h]

/-- Every turn sends at most one datagram, to the sender of the request just received. -/
theorem c93_only_sender (rs : List Recv) (r : Recv) (s : Sent) (hs : s ∈ (turn (after start rs) r).2) :
    ∃ q, request r = some q ∧ s.dest = q.sender ∧ (turn (after start rs) r).2 = [s] := by
  cases h : request r with
  | none => rw [turn_other _ r h] at hs; simp at hs
  | some q =>
    rw [turn_answer rs r q h] at hs ⊢
    simp only [List.mem_singleton] at hs
    subst hs
    exact ⟨q, rfl, rfl, rfl⟩

/-- 65536 new keys later nothing is left of what was known before, however recently a key was heard. -/
theorem c93_forgets (rs fresh : List Recv) (r : Recv) (q : Request) (h : request r = some q)
    (hn : (requests fresh).length = 65536) (hd : (heard (requests fresh)).Nodup)
    (hf : ∀ k ∈ heard (requests fresh), k ∉ heard (requests rs) ∧ k ≠ List.replicate 32 0)
    (hq : q.own ∈ heard (requests fresh)) (hw : q.wanted ∉ heard (requests fresh)) :
    (loop start (rs ++ fresh ++ [r])).getLast? = some [⟨[], q.sender⟩] := by
  rw [loop_last, turn_answer (rs ++ fresh) r q h]
  have hreq : requests (rs ++ fresh) = requests rs ++ requests fresh := by simp [requests]
  have hlen : (queue firstQueue (requests rs)).length = 65536 := by
    rw [queue_length _ _ (by intro hc; have := congrArg List.length hc; rw [firstQueue_length] at this; simp [maxEntries] at this), firstQueue_length]
    rfl
  have hq0 : ∀ k ∈ heard (requests fresh), k ∉ keys (queue firstQueue (requests rs)) := by
    intro k hk hc
    rcases queue_keys_subset _ _ _ hc with hc | hc
    · obtain ⟨p, hp, he⟩ := List.mem_map.1 hc
      rw [(List.mem_replicate.1 hp).2] at he
      exact (hf k hk).2 he.symm
    · exact (hf k hk).1 hc
  have e : queue firstQueue (requests (rs ++ fresh)) = (requests fresh).map fun r => (r.own, r.sender) := by
    rw [hreq, queue_append, queue_fresh _ _ hd hq0 (by omega), hn, List.drop_eq_nil_of_le (by omega), List.nil_append]
  rw [queue_append, e]
  have hkeys : keys ((requests fresh).map fun r => (r.own, r.sender)) = heard (requests fresh) := by
    simp [keys, heard, List.map_map, Function.comp_def]
  have : known (queue ((requests fresh).map fun r => (r.own, r.sender)) [q]) q.wanted = none := by
    apply known_none
    show q.wanted ∉ keys (hear _ q.own q.sender)
    unfold hear
    rw [if_pos (by rw [← hkeys] at hq; exact hq), renew_keys, hkeys]
    exact hw
  rw [this]; rfl

/-! ### Examples and findings -/

def placeA : Place := ⟨[192, 0, 2, 1], [200, 10]⟩
def placeB : Place := ⟨[198, 51, 100, 7], [4, 210]⟩
def keyA : PubKey := List.replicate 32 1
def keyB : PubKey := List.replicate 32 2

/-- The hypotheses of c93_answers are met: A asks for B before B was heard, then B asks for A, then A again. -/
example :
    (loop start [.datagram (keyA ++ keyB) placeA]).getLast? = some [⟨[], placeA⟩] ∧
    (loop start [.datagram (keyA ++ keyB) placeA, .error, .datagram (keyB ++ keyA) placeB]).getLast? = some [⟨[192, 0, 2, 1, 200, 10], placeB⟩] ∧
    (loop start [.datagram (keyA ++ keyB) placeA, .datagram (keyB ++ keyA) placeB, .datagram (keyA ++ keyB) placeA]).getLast? =
      some [⟨[198, 51, 100, 7, 4, 210], placeA⟩] := by
  refine ⟨?_, ?_, ?_⟩
  · have := c93_answers [] (.datagram (keyA ++ keyB) placeA) ⟨placeA, keyA, keyB⟩ (by rfl) (by decide +kernel) (by decide +kernel)
    rw [show answer (lastHeard (requests [] ++ [⟨placeA, keyA, keyB⟩]) keyB) = [] by decide +kernel] at this
    exact this
  · have := c93_answers [.datagram (keyA ++ keyB) placeA, .error] (.datagram (keyB ++ keyA) placeB) ⟨placeB, keyB, keyA⟩ (by rfl) (by decide +kernel) (by decide +kernel)
    rw [show answer (lastHeard (requests [.datagram (keyA ++ keyB) placeA, .error] ++ [⟨placeB, keyB, keyA⟩]) keyA) = [192, 0, 2, 1, 200, 10] by
      decide +kernel] at this
    exact this
  · have := c93_answers [.datagram (keyA ++ keyB) placeA, .datagram (keyB ++ keyA) placeB] (.datagram (keyA ++ keyB) placeA) ⟨placeA, keyA, keyB⟩ (by rfl)
      (by decide +kernel) (by decide +kernel)
    rw [show answer (lastHeard (requests [.datagram (keyA ++ keyB) placeA, .datagram (keyB ++ keyA) placeB] ++ [⟨placeA, keyA, keyB⟩]) keyB) =
      [198, 51, 100, 7, 4, 210] by decide +kernel] at this
    exact this

/-- Why the wanted key must not be all zeros: a server that was just started says that this key, never heard, is at 0.0.0.0 port 0. -/
theorem c93_counterexample_zero :
    (loop start [.datagram (keyA ++ List.replicate 32 0) placeA]).getLast? = some [⟨[0, 0, 0, 0, 0, 0], placeA⟩] ∧
    List.replicate 32 0 ∉ heard (requests [.datagram (keyA ++ List.replicate 32 0) placeA]) := by
  refine ⟨?_, by decide +kernel⟩
  have := c93_exact [] (.datagram (keyA ++ List.replicate 32 0) placeA) ⟨placeA, keyA, List.replicate 32 0⟩ (by rfl)
  rw [List.nil_append] at this
  rw [this]
  have hq : queue firstQueue (requests [] ++ [⟨placeA, keyA, List.replicate 32 0⟩]) = firstQueue.drop 1 ++ [(keyA, placeA)] := by
    show hear firstQueue keyA placeA = _
    unfold hear
    rw [if_neg]
    intro hc
    obtain ⟨p, hp, he⟩ := List.mem_map.1 hc
    rw [(List.mem_replicate.1 hp).2] at he
    revert he; decide +kernel
  have hd : firstQueue.drop 1 = (List.replicate 32 0, ⟨[0, 0, 0, 0], [0, 0]⟩) :: List.replicate 65534 (List.replicate 32 0, ⟨[0, 0, 0, 0], [0, 0]⟩) := by
    unfold firstQueue
    rw [List.drop_replicate, ← List.replicate_succ]
  rw [hq, hd]
  rw [List.cons_append]
  unfold known
  rw [List.find?_cons]
  rfl

/-- Whoever sends a datagram with the key of somebody else decides what the server says about that key. -/
theorem c93_counterexample_spoof :
    (loop start [.datagram (keyB ++ keyA) placeB, .datagram (keyB ++ keyB) placeA, .datagram (keyA ++ keyB) placeB]).getLast? =
      some [⟨placeA.ip ++ placeA.port, placeB⟩] := by
  have := c93_answers [.datagram (keyB ++ keyA) placeB, .datagram (keyB ++ keyB) placeA] (.datagram (keyA ++ keyB) placeB) ⟨placeB, keyA, keyB⟩ (by rfl)
      (by decide +kernel) (by decide +kernel)
  rw [show answer (lastHeard (requests [.datagram (keyB ++ keyA) placeB, .datagram (keyB ++ keyB) placeA] ++ [⟨placeB, keyA, keyB⟩]) keyB) =
      placeA.ip ++ placeA.port by decide +kernel] at this
  exact this

/-- 65536 different keys. -/
def freshKey (i : Nat) : PubKey := 7 :: UInt8.ofNat (i / 256) :: UInt8.ofNat i :: List.replicate 29 7
def freshData (i : Nat) : Recv := .datagram (freshKey i ++ keyA) placeB

theorem freshKey_inj (i j : Nat) (hi : i < 65536) (hj : j < 65536) (h : freshKey i = freshKey j) : i = j := by
  simp only [freshKey, List.cons.injEq, and_true, true_and] at h
  have h1 := congrArg UInt8.toNat h.1
  have h2 := congrArg UInt8.toNat h.2
  simp only [UInt8.toNat_ofNat'] at h1 h2
  omega

theorem fresh_requests : requests ((List.range 65536).map freshData) = (List.range 65536).map fun i => ⟨placeB, freshKey i, keyA⟩ := by
  unfold requests
  rw [List.filterMap_map]
  have : request ∘ freshData = fun i => some ⟨placeB, freshKey i, keyA⟩ := by
    funext i
    simp [request, freshData, freshKey, keyA]
  rw [this, List.filterMap_eq_map']

/-- B is heard; then 65536 other keys, once each, which takes one computer a few seconds: the server does not know B any more. -/
theorem c93_counterexample_forgotten :
    (loop start ([.datagram (keyB ++ keyA) placeB] ++ (List.range 65536).map freshData ++ [.datagram (freshKey 0 ++ keyB) placeA])).getLast? =
      some [⟨[], placeA⟩] := by
  have hheard : heard (requests ((List.range 65536).map freshData)) = (List.range 65536).map freshKey := by
    rw [fresh_requests]; simp [heard, List.map_map, Function.comp_def]
  have hmem : ∀ k : PubKey, k.head? ≠ some 7 → k ∉ (List.range 65536).map freshKey := by
    intro k hk hc
    obtain ⟨i, -, rfl⟩ := List.mem_map.1 hc
    exact hk rfl
  refine c93_forgets [.datagram (keyB ++ keyA) placeB] _ (.datagram (freshKey 0 ++ keyB) placeA) ⟨placeA, freshKey 0, keyB⟩ (by rfl) ?_ ?_ ?_ ?_ ?_
  · rw [fresh_requests, List.length_map, List.length_range]
  · rw [hheard]
    refine List.Nodup.map_on ?_ List.nodup_range
    intro i hi j hj h
    exact freshKey_inj i j (List.mem_range.1 hi) (List.mem_range.1 hj) h
  · intro k hk
    rw [hheard] at hk
    constructor
    · intro hc
      have : k = keyB := by simpa [heard, requests, request, keyA, keyB] using hc
      subst this
      exact hmem _ (by decide) hk
    · rintro rfl
      exact hmem _ (by decide) hk
  · rw [hheard]
    exact List.mem_map.2 ⟨0, by simp, rfl⟩
  · rw [hheard]
    exact hmem _ (by decide)

end WG.Props.Punch
