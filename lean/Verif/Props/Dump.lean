import Verif.Proof.Dump
import Verif.Props.Show
/-! C34: the scripting output. -/
namespace WG.Props
open WG WG.Spec

/-- C34. The dump is a table: one row of 4 columns for the device and one of 8 for each peer in order, each preceded by the
interface name with `all`. -/
theorem c34_dump_is_table (env : ShowEnv) (d : Device) (w : Bool) :
    uglyPrint env d b!"dump" w = some (table (dumpRows (shownTexts env) d w)) ∧
    (dumpRows (shownTexts env) d w).map List.length = (if w then 5 else 4) :: d.peers.map fun _ => if w then 9 else 8 := by
  constructor
  · rw [shownTexts_eq, ← dumpPrint_eq]; rfl
  · cases w <;> simp [dumpRows, deviceColumns, peerColumns, Function.comp_def]

/-- C34. A program that splits the dump at line feeds and tabs gets exactly these columns. -/
theorem c34_dump_reads_back (env : ShowEnv) (d : Device) (w : Bool) (hn : OneColumn d.name) (E : Endpoint → Prop)
    (hT : Readable (shownTexts env) E) (hE : ∀ p ∈ d.peers, p.endpoint ≠ .unset → E p.endpoint) :
    (uglyPrint env d b!"dump" w).map readTable = some (dumpRows (shownTexts env) d w) := by
  rw [(c34_dump_is_table env d w).1, Option.map_some, readTable_table]
  intro r hr
  simp only [dumpRows, List.mem_map, List.mem_cons] at hr
  obtain ⟨x, hx, rfl⟩ := hr
  have hx' : x ≠ [] ∧ ∀ c ∈ x, OneColumn c := by
    rcases hx with rfl | ⟨p, hp, rfl⟩
    · exact ⟨by simp [deviceColumns], deviceColumns_one d⟩
    · exact ⟨by simp [peerColumns], peerColumns_one hT p (hE p hp)⟩
  cases w
  · exact hx'
  · refine ⟨by simp, ?_⟩
    intro c hc
    simp only [if_true, List.mem_cons] at hc
    rcases hc with rfl | hc
    · exact hn
    · exact hx'.2 c hc

/-- C34. The dump determines everything it reports: keys and whether they are present, port, mark, and for each peer in order
public key, preshared key, endpoint, allowed IPs, handshake time, counters and keepalive. -/
theorem c34_dump_determines_facts (env : ShowEnv) (d d' : Device) (w : Bool) (hn : OneColumn d.name) (hn' : OneColumn d'.name) (E : Endpoint → Prop)
    (hT : Readable (shownTexts env) E) (hE : ∀ p ∈ d.peers ++ d'.peers, p.endpoint ≠ .unset → E p.endpoint)
    (ht : ∀ p ∈ d.peers ++ d'.peers, 0 ≤ p.handshakeSec ∧ p.handshakeSec < 2 ^ 64)
    (h : uglyPrint env d b!"dump" w = uglyPrint env d' b!"dump" w) :
    Device.facts d = Device.facts d' ∧ (w = true → d.name = d'.name) := by
  have h1 := c34_dump_reads_back env d w hn E hT fun p hp => hE p (by simp [hp])
  rw [h, c34_dump_reads_back env d' w hn' E hT fun p hp => hE p (by simp [hp])] at h1
  simp only [Option.some.injEq, dumpRows, List.map_cons, List.cons.injEq] at h1
  obtain ⟨h2, h3⟩ := h1
  have hcancel : ∀ a b : List (List UInt8), (if w then d'.name :: a else a) = (if w then d.name :: b else b) → a = b := by
    intro a b hab
    cases w
    · exact hab
    · exact (List.cons.inj hab).2
  have e1 := deviceColumns_inj d d' (hcancel _ _ h2).symm
  have e2 : d.peers.map Peer.facts = d'.peers.map Peer.facts := by
    revert h3
    have : ∀ (l l' : List Peer), (∀ p ∈ l ++ l', p ∈ d.peers ++ d'.peers) →
        l'.map (fun p => if w then d'.name :: peerColumns (shownTexts env) p else peerColumns (shownTexts env) p) =
        l.map (fun p => if w then d.name :: peerColumns (shownTexts env) p else peerColumns (shownTexts env) p) →
        l.map Peer.facts = l'.map Peer.facts := by
      intro l
      induction l with
      | nil => intro l' _ h; cases l' with
        | nil => rfl
        | cons => simp at h
      | cons a l ih =>
        intro l' hm h
        cases l' with
        | nil => simp at h
        | cons b l' =>
          simp only [List.map_cons, List.cons.injEq] at h ⊢
          have ma := hm a (by simp)
          have mb := hm b (by simp)
          exact ⟨peerColumns_inj hT a b (hE a ma) (hE b mb) (ht a ma) (ht b mb) (hcancel _ _ h.1).symm, ih l' (fun p hp => hm p (by
            simp only [List.mem_append, List.mem_cons] at hp ⊢; rcases hp with hp | hp <;> simp [hp])) h.2⟩
    simp only [List.map_map]
    exact this d.peers d'.peers (fun p hp => hp)
  refine ⟨?_, ?_⟩
  · simp only [Device.facts, DeviceFacts.mk.injEq]
    exact ⟨e1.1, e1.2.1, e1.2.2.1, e1.2.2.2, e2⟩
  · intro hw
    subst hw
    simp only [if_true, List.cons.injEq] at h2
    exact h2.1.symm

/-- C34. Every single-parameter listing is the corresponding columns of the dump (allowed IPs separated by spaces instead of
commas), for the same device; other words are refused. -/
theorem c34_listing_is_dump_columns (env : ShowEnv) (d : Device) (w : Bool) (E : Endpoint → Prop) (hT : Readable (shownTexts env) E)
    (param : CStr) (hp : param ≠ b!"dump") :
    uglyPrint env d param w = (listingRows (shownTexts env) d w param).map table := by
  rw [shownTexts_eq] at hT ⊢
  by_cases hk : param ∈ showParams
  · simp only [showParams, List.mem_cons, List.not_mem_nil, or_false] at hk
    have dev : ∀ cols, (∃ x, pick cols (deviceColumns d) = [x]) → devListing.lookup param = some cols →
        (listingRows (textsOf env) d w param).map table = some (ifaceCol d w ++ joinWith [9] (pick cols (deviceColumns d)) ++ [10]) := by
      rintro cols ⟨x, hx⟩ h
      simp only [listingRows, h, Option.map_some, table, List.map_cons, List.map_nil, unlines_one, hx, join_named]
    have peer : ∀ cols, (∀ p, ∃ x l, pick cols (peerColumns (textsOf env) p) = x :: l) → devListing.lookup param = none → peerListing.lookup param = some cols →
        (listingRows (textsOf env) d w param).map table = some (d.peers.flatMap fun p =>
          ifaceCol d w ++ joinWith [9] ((pick cols (peerColumns (textsOf env) p)).map (commasToSpaces param)) ++ [10]) := by
      intro cols hx h1 h2
      simp only [listingRows, h1, h2, Option.map_some, table, List.map_map, unlines_map]
      congr 2
      funext p
      obtain ⟨x, l, e⟩ := hx p
      simp only [Function.comp, e, List.map_cons, join_named]
    rcases hk with rfl | rfl | rfl | rfl | rfl | rfl | rfl | rfl | rfl | rfl | rfl | rfl
    · rw [dev [1] ⟨_, rfl⟩ rfl]
      show some _ = _
      rw [maybeKey_eq]; rfl
    · rw [dev [0] ⟨_, rfl⟩ rfl]
      show some _ = _
      rw [maybeKey_eq]; rfl
    · rw [dev [2] ⟨_, rfl⟩ rfl]
      show some _ = _
      rw [showDec_eq]; rfl
    · rw [dev [3] ⟨_, rfl⟩ rfl]
      show some _ = _
      rw [markText_eq]; rfl
    · rw [peer [0, 2] (fun _ => ⟨_, _, rfl⟩) rfl rfl]
      show some _ = _
      simp only [commas_other _ (show b!"endpoints" ≠ b!"allowed-ips" by decide), pick, peerColumns, List.map_cons, List.map_nil, List.getD_cons_zero,
        List.getD_cons_succ, joinWith, keyToBase64_rfc, endpointOrNone_eq, List.append_assoc]
    · rw [peer [0, 3] (fun _ => ⟨_, _, rfl⟩) rfl rfl]
      show some _ = _
      simp only [pick, peerColumns, List.map_cons, List.map_nil, List.getD_cons_zero,
        List.getD_cons_succ, joinWith, keyToBase64_rfc, key_no_comma, ipsText_eq, List.append_assoc]
      congr 2
      funext p
      rw [ips_spaces hT]
      simp only [ipEntries, List.append_assoc]
    · rw [peer [0, 4] (fun _ => ⟨_, _, rfl⟩) rfl rfl]
      show some _ = _
      simp only [commas_other _ (show b!"latest-handshakes" ≠ b!"allowed-ips" by decide), pick, peerColumns, List.map_cons, List.map_nil, List.getD_cons_zero,
        List.getD_cons_succ, joinWith, keyToBase64_rfc, secText, showDec_eq, List.append_assoc]
    · rw [peer [0, 5, 6] (fun _ => ⟨_, _, rfl⟩) rfl rfl]
      show some _ = _
      simp only [commas_other _ (show b!"transfer" ≠ b!"allowed-ips" by decide), pick, peerColumns, List.map_cons, List.map_nil, List.getD_cons_zero,
        List.getD_cons_succ, joinWith, keyToBase64_rfc, showDec_eq, List.append_assoc]
    · rw [peer [0, 7] (fun _ => ⟨_, _, rfl⟩) rfl rfl]
      show some _ = _
      simp only [commas_other _ (show b!"persistent-keepalive" ≠ b!"allowed-ips" by decide), pick, peerColumns, List.map_cons, List.map_nil, List.getD_cons_zero,
        List.getD_cons_succ, joinWith, keyToBase64_rfc, keepaliveText_eq, List.append_assoc]
    · rw [peer [0, 1] (fun _ => ⟨_, _, rfl⟩) rfl rfl]
      show some _ = _
      simp only [commas_other _ (show b!"preshared-keys" ≠ b!"allowed-ips" by decide), pick, peerColumns, List.map_cons, List.map_nil, List.getD_cons_zero,
        List.getD_cons_succ, joinWith, keyToBase64_rfc, maybeKey_eq, List.append_assoc]
    · rw [peer [0] (fun _ => ⟨_, _, rfl⟩) rfl rfl]
      show some _ = _
      simp only [commas_other _ (show b!"peers" ≠ b!"allowed-ips" by decide), pick, peerColumns, List.map_cons, List.map_nil, List.getD_cons_zero,
        joinWith, keyToBase64_rfc]
    · exact absurd rfl hp
  · have h1 : uglyPrint env d param w = none := by
      rw [← Option.not_isSome_iff_eq_none, ugly_isSome]; exact hk
    rw [h1]
    simp only [showParams, List.mem_cons, List.not_mem_nil, or_false, not_or] at hk
    obtain ⟨k1, k2, k3, k4, k5, k6, k7, k8, k9, k10, k11, k12⟩ := hk
    have b : ∀ x, param ≠ x → (param == x) = false := fun x hx => by simpa using hx
    simp only [listingRows, devListing, peerListing, List.lookup, b _ k1, b _ k2, b _ k3, b _ k4, b _ k5, b _ k6, b _ k7, b _ k8, b _ k9, b _ k10, b _ k11]
    rfl

/-- Socket addresses without flow information (which numeric texts do not carry). -/
def NoFlow (e : Endpoint) : Prop := (∃ a p, e = .in4 a p) ∨ ∃ a p sc, e = .in6 a p 0 sc

theorem std_host6 (a : IP6) (sc : UInt32) : c!":" ∈ ntop6 a ++ (if sc = 0 then [] else c!"%" :: showDec sc.toNat) :=
  List.mem_append_left _ (ntop6_colon a)

theorem dec_not_mem (n : Nat) (x : UInt8) (h : isDigit x = false) : x ∉ showDec n := by
  intro hm; rw [showDec_eq] at hm; rw [decimal_digit n x hm] at h; cases h

theorem std_ep4 (a : IP4) (p : UInt16) : (shownTexts stdShow).endpoint (.in4 a p) = ntop4 a ++ c!":" :: showDec p.toNat := rfl

theorem std_ep6 (a : IP6) (p : UInt16) (fl sc : UInt32) : (shownTexts stdShow).endpoint (.in6 a p fl sc) =
    (c!"[" :: ntop6 a ++ (if sc = 0 then [] else c!"%" :: showDec sc.toNat)) ++ c!"]" :: (c!":" :: showDec p.toNat) := by
  show hostPort _ _ = _
  rw [hostPort, if_pos (std_host6 a sc)]
  simp

theorem addr_not_mem {s : CStr} (h : ∀ c ∈ s, c ∈ addrChars) (x : UInt8) (hx : x ∉ addrChars) : x ∉ s := fun hm => hx (h x hm)

theorem a4 (a : IP4) : ∀ c ∈ ntop4 a, c ∈ addrChars := fun c hc => sub_chars (ntop4_chars a c hc)

theorem host6_not_mem (a : IP6) (sc : UInt32) (x : UInt8) (h1 : x ∉ addrChars) (h2 : isDigit x = false) (h3 : x ≠ c!"%") :
    x ∉ ntop6 a ++ (if sc = 0 then [] else c!"%" :: showDec sc.toNat) := by
  intro hm
  rcases List.mem_append.1 hm with hm | hm
  · exact addr_not_mem (ntop6_chars a) x h1 hm
  · split at hm
    · simp at hm
    · rcases List.mem_cons.1 hm with hm | hm
      · exact h3 hm
      · exact dec_not_mem _ x h2 hm

theorem host6_inj (a b : IP6) (s t : UInt32)
    (h : ntop6 a ++ (if s = 0 then [] else c!"%" :: showDec s.toNat) = ntop6 b ++ (if t = 0 then [] else c!"%" :: showDec t.toNat)) : a = b ∧ s = t := by
  have np : ∀ a, c!"%" ∉ ntop6 a := fun a => addr_not_mem (ntop6_chars a) _ (by decide)
  have nd : ∀ n, c!"%" ∉ showDec n := fun n => dec_not_mem n _ (by decide)
  have inj : ∀ a b, ntop6 a = ntop6 b → a = b := fun a b e => by
    have := pton6_ntop6 a; rw [e, pton6_ntop6 b] at this; simpa using this.symm
  have h' := congrArg (splitOn c!"%") h
  by_cases h1 : s = 0 <;> by_cases h2 : t = 0
  · subst h1 h2; simp only [if_true, List.append_nil] at h; exact ⟨inj _ _ h, rfl⟩
  · simp only [if_pos h1, if_neg h2, List.append_nil] at h'
    rw [splitOn_free _ _ (np _), splitOn_append _ _ _ (np _), splitOn_free _ _ (nd _)] at h'; simp at h'
  · simp only [if_pos h2, if_neg h1, List.append_nil] at h'
    rw [splitOn_free _ _ (np _), splitOn_append _ _ _ (np _), splitOn_free _ _ (nd _)] at h'; simp at h'
  · simp only [if_neg h1, if_neg h2] at h'
    rw [splitOn_append _ _ _ (np _), splitOn_append _ _ _ (np _), splitOn_free _ _ (nd _), splitOn_free _ _ (nd _)] at h'
    simp only [List.cons.injEq, and_true, showDec_eq] at h'
    exact ⟨inj _ _ h'.1, UInt32.toNat_inj.1 (decimal_inj h'.2)⟩

theorem oneColumn_of {s : CStr} (h9 : (9 : UInt8) ∉ s) (h10 : (10 : UInt8) ∉ s) : OneColumn s := ⟨h9, h10⟩

theorem dec_port_inj {p q : UInt16} (h : showDec p.toNat = showDec q.toNat) : p = q := by
  rw [showDec_eq, showDec_eq] at h; exact UInt16.toNat_inj.1 (decimal_inj h)

theorem showDec_one (n : Nat) : OneColumn (showDec n) := by rw [showDec_eq]; exact oneColumn_dec _

/-- The hypotheses of C34 hold for the standard address texts. -/
theorem std_readable : Readable (shownTexts stdShow) NoFlow where
  addr a := by
    cases a with
    | v4 x => exact ⟨⟨addr_not_mem (a4 x) _ (by decide), addr_not_mem (a4 x) _ (by decide)⟩, addr_not_mem (a4 x) _ (by decide), addr_not_mem (a4 x) _ (by decide)⟩
    | v6 x => exact ⟨⟨addr_not_mem (ntop6_chars x) _ (by decide), addr_not_mem (ntop6_chars x) _ (by decide)⟩, addr_not_mem (ntop6_chars x) _ (by decide), addr_not_mem (ntop6_chars x) _ (by decide)⟩
  addr_inj a b h := by
    cases a with
    | v4 x => cases b with
      | v4 y =>
        have h : ntop4 x = ntop4 y := h
        have := pton4_ntop4 x; rw [h, pton4_ntop4 y] at this; simp only [Option.some.injEq] at this; rw [this]
      | v6 y =>
        have h : ntop4 x = ntop6 y := h
        exact absurd (h ▸ ntop6_colon y) (ntop4_no_colon x)
    | v6 x => cases b with
      | v4 y =>
        have h : ntop6 x = ntop4 y := h
        exact absurd (h ▸ ntop6_colon x) (ntop4_no_colon y)
      | v6 y =>
        have h : ntop6 x = ntop6 y := h
        have := pton6_ntop6 x; rw [h, pton6_ntop6 y] at this; simp only [Option.some.injEq] at this; rw [this]
  endpoint e he := by
    have colon : ∀ t : List UInt8, c!":" ∈ t → t ≠ b!"(none)" := by
      intro t ht e; rw [e] at ht; revert ht; decide
    rcases he with ⟨a, p, rfl⟩ | ⟨a, p, sc, rfl⟩
    · rw [std_ep4]
      refine ⟨OneColumn.append ⟨addr_not_mem (a4 a) _ (by decide), addr_not_mem (a4 a) _ (by decide)⟩
        (OneColumn.append (a := b!":") (by decide) (showDec_one _)), colon _ (by simp)⟩
    · rw [std_ep6]
      refine ⟨OneColumn.append (OneColumn.append (a := b!"[") (by decide) ?_)
        (OneColumn.append (a := b!"]:") (by decide) (showDec_one _)), colon _ (by simp)⟩
      exact ⟨host6_not_mem a sc _ (by decide) (by decide) (by decide), host6_not_mem a sc _ (by decide) (by decide) (by decide)⟩
  endpoint_inj e f he hf h := by
    have nb : ∀ a, c!"[" ∉ ntop4 a := fun a => addr_not_mem (a4 a) _ (by decide)
    have cross : ∀ (a : IP4) (p : UInt16) (r : List UInt8), ntop4 a ++ c!":" :: showDec p.toNat ≠ c!"[" :: r := by
      intro a p r e
      have : c!"[" ∈ ntop4 a ++ c!":" :: showDec p.toNat := by rw [e]; simp
      rcases List.mem_append.1 this with h | h
      · exact nb a h
      · rcases List.mem_cons.1 h with h | h
        · exact absurd h (by decide)
        · exact dec_not_mem _ _ (by decide) h
    rcases he with ⟨a, p, rfl⟩ | ⟨a, p, s, rfl⟩ <;> rcases hf with ⟨b, q, rfl⟩ | ⟨b, q, t, rfl⟩
    · rw [std_ep4, std_ep4] at h
      have h' := congrArg (splitOn c!":") h
      rw [splitOn_append _ _ _ (ntop4_no_colon a), splitOn_append _ _ _ (ntop4_no_colon b), splitOn_free _ _ (dec_not_mem _ _ (by decide)),
        splitOn_free _ _ (dec_not_mem _ _ (by decide))] at h'
      simp only [List.cons.injEq, and_true] at h'
      have := pton4_ntop4 a; rw [h'.1, pton4_ntop4 b] at this
      simp only [Option.some.injEq] at this
      rw [this, dec_port_inj h'.2]
    · rw [std_ep4, std_ep6] at h; exact absurd h (cross _ _ _)
    · rw [std_ep4, std_ep6] at h; exact absurd h.symm (cross _ _ _)
    · rw [std_ep6, std_ep6] at h
      have h' := congrArg (splitOn c!"]") h
      have nb6 : ∀ (a : IP6) (s : UInt32), c!"]" ∉ c!"[" :: ntop6 a ++ (if s = 0 then [] else c!"%" :: showDec s.toNat) := by
        intro a s hm
        rcases List.mem_cons.1 hm with hm | hm
        · exact absurd hm (by decide)
        · exact host6_not_mem a s _ (by decide) (by decide) (by decide) hm
      have np : ∀ n, c!"]" ∉ c!":" :: showDec n := by
        intro n hm
        rcases List.mem_cons.1 hm with hm | hm
        · exact absurd hm (by decide)
        · exact dec_not_mem _ _ (by decide) hm
      rw [splitOn_append _ _ _ (nb6 a s), splitOn_append _ _ _ (nb6 b t), splitOn_free _ _ (np _), splitOn_free _ _ (np _)] at h'
      simp only [List.cons.injEq, and_true, true_and, List.cons_append] at h'
      obtain ⟨e1, e2⟩ := host6_inj _ _ _ _ h'.1
      rw [e1, e2, dec_port_inj h'.2]

/-- C34 applied: on the standard system, the dump of any device with these endpoints is read back. -/
theorem c34_standard (d : Device) (w : Bool) (hn : OneColumn d.name) (hE : ∀ p ∈ d.peers, p.endpoint ≠ .unset → NoFlow p.endpoint) :
    (uglyPrint stdShow d b!"dump" w).map readTable = some (dumpRows (shownTexts stdShow) d w) :=
  c34_dump_reads_back stdShow d w hn NoFlow std_readable hE

-- the sample meets the hypotheses
example : (uglyPrint stdShow showSample b!"dump" true).map readTable = some (dumpRows (shownTexts stdShow) showSample true) :=
  c34_standard showSample true (by decide) (by
    intro p hp h
    simp only [showSample, List.mem_cons, List.not_mem_nil, or_false] at hp
    rcases hp with rfl | rfl | rfl
    · exact .inr ⟨_, _, _, rfl⟩
    · exact absurd rfl h
    · exact absurd rfl h)

example : uglyPrint stdShow showSample b!"allowed-ips" true = some
    b!"wg0\tAQIDBAUGBwgJCgsMDQ4PEBESExQVFhcYGRobHB0eHyA=\t(none)\nwg0\tAQIDBAUGBwgJCgsMDQ4PEBESExQVFhcYGRobHB0eHyA=\t(none)\nwg0\tAQIDBAUGBwgJCgsMDQ4PEBESExQVFhcYGRobHB0eHyA=\t10.0.0.1/32 ::/0\n" := by
  decide +kernel

end WG.Props
