import Verif.Proof.Reresolve
import Verif.Props.Dump
import Verif.Props.Config
/-! C92: contrib/reresolve-dns/reresolve-dns.sh. -/
namespace WG.Props
open WG WG.Spec WG.Reresolve

theorem nameChar_iff : ∀ c : UInt8, nameChar c = true ↔ (isAlpha c = true ∨ isDigit c = true ∨ c ∈ b!"_=+.-") := by
  apply forall_u8; decide +kernel

theorem isName_iff (s : List UInt8) : Quick.IsIfaceName s ↔ 1 ≤ s.length ∧ s.length ≤ 15 ∧ s.all nameChar = true := by
  unfold Quick.IsIfaceName
  simp only [List.all_eq_true, nameChar_iff]

theorem interfaceOf_path (dir iface : List UInt8) (hd : dir = [] ∨ ∃ d, dir = d ++ b!"/") (hi : Quick.IsIfaceName iface) :
    interfaceOf (dir ++ iface ++ b!".conf") = some iface := by
  obtain ⟨h1, h2, h3⟩ := (isName_iff iface).1 hi
  rw [List.all_eq_true] at h3
  have hl : (dir ++ iface ++ b!".conf").length - 5 = (dir ++ iface).length := by simp; omega
  unfold interfaceOf
  simp only
  rw [hl, List.drop_left, List.take_left, if_pos ⟨by simp; omega, by decide⟩]
  have ht : ((dir ++ iface).reverse.takeWhile nameChar) = iface.reverse := by
    rw [List.reverse_append]
    rcases hd with rfl | ⟨d, rfl⟩
    · rw [List.reverse_nil, List.append_nil]
      exact (WgJson.takeWhile_all _ fun c hc => h3 c (by simpa using hc)).1
    · rw [List.reverse_append]
      exact (WgJson.takeWhile_stop iface.reverse 47 d.reverse (fun c hc => h3 c (by simpa using hc)) (by decide)).1
  rw [ht, List.take_of_length_le (by simpa using h2), List.reverse_reverse, if_neg]
  intro h
  simp [h] at h1

theorem means_run {arg file iface : List UInt8} (h : Means arg file iface) : configFile arg = file ∧ interfaceOf file = some iface := by
  rcases h with ⟨hn, rfl, rfl⟩ | ⟨hn, rfl, hi, dir, e, hd⟩
  · refine ⟨by rw [configFile, if_pos ((isName_iff _).1 hn)], ?_⟩
    exact interfaceOf_path b!"/etc/wireguard/" iface (.inr ⟨b!"/etc/wireguard", rfl⟩) hn
  · refine ⟨by rw [configFile, if_neg (fun h => hn ((isName_iff _).2 h))], ?_⟩
    rw [e]
    exact interfaceOf_path dir iface hd hi

theorem entries_eq {content : List UInt8} {es : List (List UInt8 × List UInt8)} (h : Entries content es) : es = (Quick.bodyLines content).map entryOf := by
  obtain ⟨lines, hl, hf⟩ := h
  rw [← (Quick.scriptLines_iff content lines).1 hl]
  clear hl
  induction hf with
  | nil => rfl
  | cons h _ ih =>
    rw [List.map_cons, ← ih]
    congr 1
    exact Prod.ext ((Quick.hasKey_iff _ _).1 h.1) ((Quick.hasValue_iff _ _).1 h.2)

theorem run_peers (env : Reresolve.Env) {arg file iface content : List UInt8} {es : List (List UInt8 × List UInt8)} (hm : Means arg file iface)
    (hf : env.file file = some content) (he : Entries content es) : run env arg = runPeers env iface (peersIn es) [] := by
  obtain ⟨h1, h2⟩ := means_run hm
  rw [run, h1, h2]
  simp only [hf]
  rw [loop_eq, entries_eq he]
  rfl

theorem peersIn_endpoint (es : List (List UInt8 × List UInt8)) : ∀ p ∈ peersIn es, p.2 ≠ [] := by
  induction es with
  | nil => intro p hp; simp [peersIn] at hp
  | cons e es ih =>
    intro p hp
    rw [peersIn] at hp
    simp only [List.mem_append] at hp
    rcases hp with hp | hp
    · split at hp
      · rename_i h
        simp only [List.mem_singleton] at hp
        subst hp
        exact h.2.2
      · simp at hp
    · exact ih p hp

/-- C92. For every interface name or path, configuration file and history of the machine: for each [Peer] section with public key and
endpoint, in order, the script asks for the latest handshakes and sets the endpoint — to the text in the file, of the peer with this key, on
this interface — if and only if the interface has this peer and its latest handshake is more than 135 seconds ago. Nothing else is run. A
failure of `wg set` is the exit status and ends the script; otherwise it is 0. -/
theorem c92_updates (env : Reresolve.Env) (arg file iface content : List UInt8) (es : List (List UInt8 × List UInt8)) (hm : Means arg file iface)
    (hf : env.file file = some content) (he : Entries content es) (hu : Usual env iface)
    (hk : ∀ p ∈ peersIn es, ∃ k : Key, p.1 = rfc4648 k.toList ∧ CaseUnique env iface k) :
    ∃ t s, run env arg = (t, s) ∧ Updates iface (peersIn es) t s := by
  rw [run_peers env hm hf he]
  obtain ⟨t, s, e, hU⟩ := runPeers_updates env iface hu (peersIn es) (fun p hp => by
    obtain ⟨k, h1, h2⟩ := hk p hp
    exact ⟨k, h1, peersIn_endpoint es p hp, h2⟩) []
  exact ⟨t, s, by rw [e, List.nil_append], hU⟩

theorem process_calls (env : Reresolve.Env) (iface : List UInt8) (st : St) (tr : List Ev) :
    ∃ t, (processPeer env iface st tr).1 = tr ++ t ∧
      ∀ ev ∈ t, ev.1 = .handshakes iface ∨ ev.1 = .clock ∨ ev.1 = .setEndpoint iface st.key st.endpoint := by
  unfold processPeer
  split
  · exact ⟨[], by simp, by simp⟩
  · simp only
    split
    · exact ⟨_, rfl, by simp⟩
    · split
      · exact ⟨_, by simp only [List.append_assoc]; rfl, by simp⟩
      · split
        · exact ⟨_, by simp only [List.append_assoc]; rfl, by simp⟩
        · exact ⟨_, by simp only [List.append_assoc]; rfl, by simp⟩

theorem runPeers_calls (env : Reresolve.Env) (iface : List UInt8) (ps : List (List UInt8 × List UInt8)) (tr : List Ev) :
    ∃ t, (runPeers env iface ps tr).1 = tr ++ t ∧
      ∀ ev ∈ t, ev.1 = .handshakes iface ∨ ev.1 = .clock ∨ ∃ p ∈ ps, ev.1 = .setEndpoint iface p.1 p.2 := by
  induction ps generalizing tr with
  | nil => exact ⟨[], by simp [runPeers], by simp⟩
  | cons p ps ih =>
    obtain ⟨t, e, h⟩ := process_calls env iface ⟨true, p.1, p.2⟩ tr
    rw [runPeers]
    rcases hp : processPeer env iface ⟨true, p.1, p.2⟩ tr with ⟨tr', st', _ | s⟩
    · rw [hp] at e
      simp only at e
      obtain ⟨t', e', h'⟩ := ih tr'
      refine ⟨t ++ t', by simp only; rw [e', e, List.append_assoc], ?_⟩
      intro ev hev
      rcases List.mem_append.1 hev with hev | hev
      · rcases h ev hev with h | h | h
        · exact .inl h
        · exact .inr (.inl h)
        · exact .inr (.inr ⟨p, by simp, h⟩)
      · rcases h' ev hev with h | h | ⟨q, hq, h⟩
        · exact .inl h
        · exact .inr (.inl h)
        · exact .inr (.inr ⟨q, by simp [hq], h⟩)
    · rw [hp] at e
      simp only at e
      refine ⟨t, e, ?_⟩
      intro ev hev
      rcases h ev hev with h | h | h
      · exact .inl h
      · exact .inr (.inl h)
      · exact .inr (.inr ⟨p, by simp, h⟩)

/-- C92. Whatever the commands print and return, and whatever the file holds, the script only reads handshakes and the time and sets endpoints
that stand in a [Peer] section of the file together with the key. -/
theorem c92_only_configured (env : Reresolve.Env) (arg file iface content : List UInt8) (es : List (List UInt8 × List UInt8))
    (hm : Means arg file iface) (hf : env.file file = some content) (he : Entries content es) :
    ∀ ev ∈ (run env arg).1, ev.1 = .handshakes iface ∨ ev.1 = .clock ∨ ∃ p ∈ peersIn es, ev.1 = .setEndpoint iface p.1 p.2 := by
  rw [run_peers env hm hf he]
  obtain ⟨t, e, h⟩ := runPeers_calls env iface (peersIn es) []
  rw [e, List.nil_append]
  exact h

/-- What `wg show INTERFACE latest-handshakes` prints is such a table. -/
theorem c92_listing (env : ShowEnv) (d : Device) (E : Endpoint → Prop) (hT : Readable (shownTexts env) E) (ht : ∀ p ∈ d.peers, 0 ≤ p.handshakeSec ∧ p.handshakeSec < 2 ^ 64) :
    uglyPrint env d b!"latest-handshakes" false = some (handshakeTable (d.peers.map fun p => (p.publicKey, p.handshakeSec.toNat))) := by
  rw [c34_listing_is_dump_columns env d false E hT _ (by decide)]
  have e : listingRows (shownTexts env) d false b!"latest-handshakes" =
      some (d.peers.map fun p => [rfc4648 p.publicKey.toList, decimal (p.handshakeSec % 2 ^ 64).toNat].map (commasToSpaces b!"latest-handshakes")) := rfl
  rw [e, Option.map_some, handshakeTable, List.map_map]
  congr 2
  apply List.map_congr_left
  intro p hp
  obtain ⟨h1, h2⟩ := ht p hp
  simp only [commas_other _ (show b!"latest-handshakes" ≠ b!"allowed-ips" by decide), Function.comp, Int.emod_eq_of_lt h1 h2]

/-! ### Examples -/

/-- An interface with these peers at this time; setting an endpoint has this status. -/
def simpleEnv (rows : List (Key × Nat)) (now status : Nat) (content : List UInt8) : Reresolve.Env where
  reply _ c := match c with
    | .handshakes _ => { out := handshakeTable rows }
    | .clock => { time := now }
    | .setEndpoint .. => { status := status }
  file f := if f = b!"/etc/wireguard/wg0.conf" then some content else none
  otherRe _ _ := none

def zeroKey : Key := Vector.replicate 32 0
/-- Its text differs from that of `zeroKey` in the case of the first letter. -/
def caseKey : Key := zeroKey.set 0 104

def twoPeers : List UInt8 := b!"[Interface]\nPrivateKey = x\n[Peer]\nPublicKey = AQIDBAUGBwgJCgsMDQ4PEBESExQVFhcYGRobHB0eHyA=\nEndpoint = a.example:1\nAllowedIPs = 10.0.0.1/32\n[peer]\npublickey=AAAAAAAAAAAAAAAAAAAAAAAAAAAAAAAAAAAAAAAAAAA= # second\nendpoint=b.example:2"

def wg0Rows : List (Key × Nat) := [(zeroKey, 0), (sampleKey, 900)]

theorem means_wg0 : Means b!"wg0" b!"/etc/wireguard/wg0.conf" b!"wg0" := .inl ⟨(isName_iff _).2 (by decide), rfl, rfl⟩

theorem entries_of (content : List UInt8) : Entries content ((Quick.bodyLines content).map entryOf) := by
  refine ⟨Quick.bodyLines content, (Quick.scriptLines_iff _ _).2 rfl, ?_⟩
  generalize Quick.bodyLines content = ls
  induction ls with
  | nil => exact .nil
  | cons l ls ih => exact .cons ⟨(Quick.hasKey_iff _ _).2 rfl, (Quick.hasValue_iff _ _).2 rfl⟩ ih

theorem handshakeTable_inj {r r' : List (Key × Nat)} (h : handshakeTable r = handshakeTable r') : r = r' := by
  have key : ∀ rows : List (Key × Nat), readTable (handshakeTable rows) = rows.map fun r => [rfc4648 r.1.toList, decimal r.2] := by
    intro rows
    apply readTable_table
    intro x hx
    obtain ⟨r, -, rfl⟩ := List.mem_map.1 hx
    refine ⟨by simp, fun c hc => ?_⟩
    simp only [List.mem_cons, List.not_mem_nil, or_false] at hc
    rcases hc with rfl | rfl
    · exact oneColumn_key _
    · exact oneColumn_dec _
  have h2 := congrArg readTable h
  rw [key, key] at h2
  have hinj : Function.Injective fun r : Key × Nat => [rfc4648 r.1.toList, decimal r.2] := by
    intro a b hab
    simp only [List.cons.injEq, and_true] at hab
    exact Prod.ext (key_inj hab.1) (decimal_inj hab.2)
  exact hinj.list_map h2

theorem twoPeers_peers : peersIn ((Quick.bodyLines twoPeers).map entryOf) =
    [(rfc4648 sampleKey.toList, b!"a.example:1"), (rfc4648 zeroKey.toList, b!"b.example:2")] := by decide +kernel

-- the hypotheses of C92 hold
example : ∃ t s, run (simpleEnv wg0Rows 1000 0 twoPeers) b!"wg0" = (t, s) ∧
    Updates b!"wg0" [(rfc4648 sampleKey.toList, b!"a.example:1"), (rfc4648 zeroKey.toList, b!"b.example:2")] t s := by
  rw [← twoPeers_peers]
  refine c92_updates _ _ _ _ _ _ means_wg0 rfl (entries_of twoPeers) ⟨fun _ => ⟨wg0Rows, rfl, by decide, by decide +kernel⟩, fun _ => ?_⟩ ?_
  · show 1000 < 2 ^ 62; decide
  · rw [twoPeers_peers]
    have hc : ∀ k : Key, (∀ x ∈ wg0Rows, (rfc4648 x.1.toList).map lower = (rfc4648 k.toList).map lower → x.1 = k) →
        CaseUnique (simpleEnv wg0Rows 1000 0 twoPeers) b!"wg0" k := by
      intro k hk tr rows hr
      have : wg0Rows = rows := handshakeTable_inj hr
      subst this
      exact hk
    intro p hp
    simp only [List.mem_cons, List.not_mem_nil, or_false] at hp
    rcases hp with rfl | rfl
    · exact ⟨sampleKey, rfl, hc _ (by decide +kernel)⟩
    · exact ⟨zeroKey, rfl, hc _ (by decide +kernel)⟩

-- the peer without handshake is updated, the one heard 100 seconds ago is not
example : (run (simpleEnv wg0Rows 1000 0 twoPeers) b!"wg0").1.map (·.1) =
    [.handshakes b!"wg0", .clock, .handshakes b!"wg0", .clock, .setEndpoint b!"wg0" (rfc4648 zeroKey.toList) b!"b.example:2"] := by decide +kernel

/-- C92. Without the hypothesis on case: the handshake of another peer whose key differs in the case of a letter counts, and the endpoint is
not updated. -/
theorem c92_counterexample_case :
    let rows := [(zeroKey, 950), (caseKey, 0)]
    let conf := b!"[Peer]\nPublicKey = aAAAAAAAAAAAAAAAAAAAAAAAAAAAAAAAAAAAAAAAAAA=\nEndpoint = b.example:2\n"
    (caseKey, 0) ∈ rows ∧ peersIn ((Quick.bodyLines conf).map entryOf) = [(rfc4648 caseKey.toList, b!"b.example:2")] ∧
    (run (simpleEnv rows 1000 0 conf) b!"wg0").1.map (·.1) = [.handshakes b!"wg0", .clock] := by
  refine ⟨by simp, ?_, ?_⟩ <;> decide +kernel

/-- C92. A peer whose name cannot be resolved keeps all later peers from being updated, in every run. -/
theorem c92_counterexample_stop :
    run (simpleEnv [(zeroKey, 0), (sampleKey, 0)] 1000 1 twoPeers) b!"wg0" |>.1.map (·.1) |>.all (fun c => match c with
      | .setEndpoint _ k _ => k = rfc4648 sampleKey.toList
      | _ => true) := by decide +kernel

/-- C92. A file name too long for an interface: the script works on another interface, named by its last fifteen characters. -/
theorem c92_counterexample_long : interfaceOf (configFile b!"/etc/wireguard/averyveryverylongname0.conf") = some b!"ryverylongname0" := by decide

/-- C92. White space inside of a section header, which wg accepts: the peer is never updated. -/
theorem c92_counterexample_header :
    let conf := b!"[Interface]\n[ Peer ]\nPublicKey = AAAAAAAAAAAAAAAAAAAAAAAAAAAAAAAAAAAAAAAAAAA=\nEndpoint = 192.0.2.1:1\n"
    (∃ ctx, readLines stdEnv (configReadInit false) ((getlines conf).map cstr) = .ok ctx ∧ ctx.device.peers.map (·.publicKey) = [zeroKey]) ∧
    run (simpleEnv [(zeroKey, 0)] 1000 0 conf) b!"wg0" = ([], 0) := by
  refine ⟨?_, ?_⟩
  · have h : ((match readLines stdEnv (configReadInit false) ((getlines b!"[Interface]\n[ Peer ]\nPublicKey = AAAAAAAAAAAAAAAAAAAAAAAAAAAAAAAAAAAAAAAAAAA=\nEndpoint = 192.0.2.1:1\n").map cstr) with
      | .ok ctx => ctx.device.peers.map (·.publicKey)
      | _ => []) = [zeroKey]) := by decide +kernel
    split at h
    · exact ⟨_, by assumption, h⟩
    · simp at h
  · rw [run_peers _ means_wg0 rfl (entries_of _)]
    rw [show peersIn _ = [] by decide +kernel]
    rfl

/-- A number that is not one in arithmetic (`09`) makes the comparison false: the endpoint is not set. -/
theorem c92_bad_number (now : Nat) : Reresolve.stale now b!"09" = false := rfl

end WG.Props
