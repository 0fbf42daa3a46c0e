import Verif.Proof.DemoClient
import Verif.Props.Demo
/-!
# C103: what a server can put into the configuration of the demo client

contrib/ncat-client-server/client-quick.sh writes /etc/wireguard/demo.conf from what an unauthenticated server sends. Proved for every answer, of any
length, and every key.
-/
namespace WG.Props.DemoClient
open WG.DemoClient WG.Spec WG.Spec.Quick
open WG.Quick (chomp scriptLines_iff says_unique)

theorem chomp_key (k : Key) (z : List UInt8) (hz : ∀ c ∈ z, c = 10) : chomp (rfc4648 k.toList ++ z) = rfc4648 k.toList := by
  have hb := bare_key k
  unfold chomp
  have e1 : (rfc4648 k.toList ++ z).filter (· ≠ 0) = rfc4648 k.toList ++ z := by
    rw [List.filter_eq_self]
    intro c hc
    rcases List.mem_append.1 hc with hc | hc
    · simpa using (hb c hc).2.2
    · rw [hz c hc]; decide
  have e2 : (rfc4648 k.toList).reverse.dropWhile (· = 10) = (rfc4648 k.toList).reverse := by
    apply List.dropWhile_eq_self_iff.2
    intro hl
    have hm := List.getElem_mem hl
    rw [List.mem_reverse] at hm
    have := (hb _ hm).1
    simp only [decide_eq_true_eq]
    intro e
    rw [e] at this
    revert this; decide
  rw [e1, List.reverse_append, List.dropWhile_append_of_pos, e2, List.reverse_reverse]
  intro c hc
  simpa using hz c (List.mem_reverse.1 hc)

theorem oneLine_key (k : Key) : OneLine (rfc4648 k.toList) := by
  have hb := bare_key k
  refine ⟨fun h => ?_, fun h => (hb 0 h).2.2 rfl⟩
  have := (hb 10 h).1
  revert this; decide

theorem oneLine_sub {s t : CStr} (h : OneLine t) (hs : ∀ c ∈ s, c ∈ t) : OneLine s := ⟨fun hm => h.1 (hs _ hm), fun hm => h.2 (hs _ hm)⟩

theorem field_sub (l : CStr) : (∀ c ∈ (field l).1, c ∈ l ∧ c ≠ 58) ∧ ∀ c ∈ (field l).2, c ∈ l := by
  constructor
  · intro c hc
    exact ⟨List.takeWhile_sublist _ |>.subset hc, by simpa using List.mem_takeWhile_imp hc⟩
  · intro c hc
    exact (List.dropWhile_sublist _).subset (List.mem_of_mem_drop hc)

theorem readFields_oneLine {input : List UInt8} {a b c d : CStr} (h : readFields input = some (a, b, c, d)) :
    OneLine b ∧ OneLine c ∧ OneLine d ∧ (58 : UInt8) ∉ c := by
  unfold readFields at h
  split at h
  · simp only [Option.some.injEq, Prod.mk.injEq] at h
    obtain ⟨-, rfl, rfl, rfl⟩ := h
    set r0 := (input.takeWhile (· ≠ 10)).filter (· ≠ 0)
    have h0 : OneLine r0 := by
      constructor
      · intro hm
        have := List.mem_takeWhile_imp (List.mem_of_mem_filter hm)
        simp at this
      · intro hm
        have := (List.mem_filter.1 hm).2
        simp at this
    have h1 := oneLine_sub h0 (field_sub r0).2
    have h2 := oneLine_sub h1 (fun c hc => ((field_sub (field r0).2).1 c hc).1)
    have h3 := oneLine_sub h1 (field_sub (field r0).2).2
    have h4 := oneLine_sub h3 (fun c hc => ((field_sub (field (field r0).2).2).1 c hc).1)
    have h5 := oneLine_sub h3 (field_sub (field (field r0).2).2).2
    refine ⟨h2, h4, ?_, fun hm => ((field_sub _).1 _ hm).2 rfl⟩
    split
    · exact oneLine_sub h5 fun c hc => (List.dropLast_sublist _).subset hc
    · exact h5
  · cases h

/-- How the script ends with status 0, and what is written: the whole of a line that starts with `OK`. -/
theorem run_file (env : DemoClient.Env) (content : List UInt8) (h : (DemoClient.run env).file = some content) :
    env.genkey.1 = true ∧ env.connected = true ∧ (env.pubkey (chomp env.genkey.2 ++ b!"\n")).1 = true ∧ env.install = true ∧
    ∃ pub port ip, readFields (env.reply (env.pubkey (chomp env.genkey.2 ++ b!"\n")).2) = some (b!"OK", pub, port, ip) ∧
      content = DemoClient.confText (chomp env.genkey.2) pub port ip := by
  unfold DemoClient.run at h
  dsimp only at h
  split at h
  swap; · cases h
  split at h
  swap; · cases h
  split at h
  swap; · cases h
  cases hr : readFields (env.reply (env.pubkey (chomp env.genkey.2 ++ b!"\n")).2) with
  | none => rw [hr] at h; cases h
  | some q =>
    obtain ⟨s, pub, port, ip⟩ := q
    rw [hr] at h
    dsimp only at h
    split at h
    swap; · cases h
    split at h
    swap; · cases h
    rename_i h1 h2 h3 h4 h5
    simp only [Option.some.injEq] at h
    subst h4
    exact ⟨h1, h2, h3, h5, pub, port, ip, rfl, h.symm⟩

/-- Whatever the server sends, the file gives wg-quick one `Address` and the four nameservers of the script: no command to run, no `Table`, `MTU` or
`SaveConfig`, and no other nameserver or search domain. -/
theorem c103_no_commands (env : DemoClient.Env) (k : Key) (hk : env.genkey.2 = rfc4648 k.toList ++ b!"\n") (content : List UInt8) (h : (DemoClient.run env).file = some content)
    (lines kept : List CStr) (sets : List (CStr × CStr)) (hl : ScriptLines content lines) (hs : Says lines kept sets) :
    ∃ a, sets = [(b!"address", a), (b!"dns", b!"8.8.8.8, 8.8.4.4, 1.1.1.1, 1.0.0.1")] := by
  obtain ⟨-, -, -, -, pub, port, ip, hr, rfl⟩ := run_file env content h
  rw [hk, chomp_key k b!"\n" (by decide)] at hl
  obtain ⟨h2, h3, h4, -⟩ := readFields_oneLine hr
  obtain ⟨_, l2, _, _, _, _, _, _, hS⟩ := conf_says (oneLine_key k) h2 h3 h4
  rw [(scriptLines_iff _ _).1 hl] at hs
  exact ⟨_, (says_unique hs hS).2⟩

/-! ### The other lines -/

theorem cleaned_kept {k : Key} {pub port ip : CStr} (h2 : OneLine pub) (h3 : OneLine port) (h4 : OneLine ip)
    {lines kept : List CStr} {sets : List (CStr × CStr)} (hl : ScriptLines (DemoClient.confText (rfc4648 k.toList) pub port ip) lines) (hs : Says lines kept sets) :
    (kept.map cleaned).filter (· ≠ []) = [b!"[Interface]", b!"PrivateKey=" ++ rfc4648 k.toList, b!"[Peer]", b!"PublicKey=" ++ cleaned pub,
      b!"Endpoint=" ++ cleaned (b!"demo.wireguard.com:" ++ port), b!"AllowedIPs=0.0.0.0/0"] := by
  obtain ⟨n1, n2, n3, n4, n5, n6⟩ := plain_names
  obtain ⟨l1, l2, l3, l4, e1, -, e3, e4, hS⟩ := conf_says (oneLine_key k) h2 h3 h4
  rw [(scriptLines_iff _ _).1 hl] at hs
  rw [(says_unique hs hS).1, ← e1, ← e3, ← e4]
  simp only [List.map_cons, List.map_nil, cleaned_any _ _ n1, cleaned_any _ _ n4, cleaned_any _ _ n5]
  have z : ∀ {s : CStr}, OneLine s → s.filter (· ≠ 0) = s := fun h => List.filter_eq_self.2 fun c hc => by
    simp only [decide_eq_true_eq]; rintro rfl; exact h.2 hc
  have sp : ∀ s : CStr, cleaned (b!" " ++ s) = cleaned s := fun s => by
    unfold cleaned
    rw [List.takeWhile_append_of_pos (by decide), List.filter_append]
    rfl
  have e5 : cleaned (rfc4648 k.toList) = rfc4648 k.toList := by
    rw [cleaned_eq (bare_key k).hash, filter_bare (bare_key k)]
  have e6 : cleaned (b!" " ++ b!"demo.wireguard.com:" ++ port) = cleaned (b!"demo.wireguard.com:" ++ port) := by rw [List.append_assoc]; exact sp _
  rw [List.filter_append, z (oneLine_key k), List.filter_append, z h2, List.filter_append, z h3]
  rw [show (b!" ").filter (· ≠ 0) = b!" " by decide, show (b!" demo.wireguard.com:").filter (· ≠ 0) = b!" " ++ b!"demo.wireguard.com:" by decide, sp, sp, e6, e5]
  rw [show cleaned b!"[Interface]" = b!"[Interface]" by decide, show cleaned [] = [] by decide, show cleaned b!"[Peer]" = b!"[Peer]" by decide,
    show cleaned b!"AllowedIPs = 0.0.0.0/0" = b!"AllowedIPs=0.0.0.0/0" by decide]
  simp

instance (s w : List UInt8) : Decidable (EqNoCase s w) := inferInstanceAs (Decidable (_ = _))

theorem noEq {k w : CStr} (h : EqNoCase k w) (hw : c!"=" ∉ w) : c!"=" ∉ k := by
  intro hm
  apply hw
  rw [← h]
  exact List.mem_map.2 ⟨_, hm, by decide⟩

theorem setting_eq {name name' x v : CStr} (h : IsSetting (name ++ b!"=" ++ x) name' v) (hn : c!"=" ∉ name) (hn' : c!"=" ∉ name') :
    EqNoCase name name' ∧ x = v := by
  obtain ⟨-, k, hk, he⟩ := h
  have hk0 : c!"=" ∉ k := noEq hk hn'
  have h1 : (name ++ b!"=" ++ x).takeWhile (· ≠ c!"=") = name := by
    rw [List.append_assoc, List.takeWhile_append_of_pos (fun c hc => by simp only [ne_eq, decide_eq_true_eq]; rintro rfl; exact hn hc)]
    simp
  have h2 : (k ++ c!"=" :: v).takeWhile (· ≠ c!"=") = k := by
    rw [List.takeWhile_append_of_pos (fun c hc => by simp only [ne_eq, decide_eq_true_eq]; rintro rfl; exact hk0 hc)]
    simp
  rw [he, h2] at h1
  subst h1
  refine ⟨hk, ?_⟩
  simpa using he

variable {V : ValueSyntax}

theorem dev_hasEq {l : CStr} {d : DevSetting} (h : DevLine V l d) : c!"=" ∈ l := by
  cases h with
  | listenPort h _ => obtain ⟨-, k, -, rfl⟩ := h; simp
  | fwmark h _ => obtain ⟨-, k, -, rfl⟩ := h; simp
  | privateKey h _ => obtain ⟨-, k, -, rfl⟩ := h; simp

theorem dev_private {x : CStr} {d : DevSetting} (h : DevLine V (b!"PrivateKey=" ++ x) d) : ∃ k, d = .privateKey k ∧ V.key x k := by
  cases h with
  | listenPort h _ => exact absurd (setting_eq (name := b!"PrivateKey") h (by decide) (by decide)).1 (by decide)
  | fwmark h _ => exact absurd (setting_eq (name := b!"PrivateKey") h (by decide) (by decide)).1 (by decide)
  | privateKey h h' =>
    obtain ⟨-, rfl⟩ := setting_eq (name := b!"PrivateKey") h (by decide) (by decide)
    exact ⟨_, rfl, h'⟩

theorem peer_public {x : CStr} {d : PeerSetting} (h : PeerLine V (b!"PublicKey=" ++ x) d) : ∃ k, d = .publicKey k ∧ V.key x k := by
  cases h with
  | endpoint h _ => exact absurd (setting_eq (name := b!"PublicKey") h (by decide) (by decide)).1 (by decide)
  | allowedIPs h _ => exact absurd (setting_eq (name := b!"PublicKey") h (by decide) (by decide)).1 (by decide)
  | keepalive h _ => exact absurd (setting_eq (name := b!"PublicKey") h (by decide) (by decide)).1 (by decide)
  | presharedKey h _ => exact absurd (setting_eq (name := b!"PublicKey") h (by decide) (by decide)).1 (by decide)
  | publicKey h h' =>
    obtain ⟨-, rfl⟩ := setting_eq (name := b!"PublicKey") h (by decide) (by decide)
    exact ⟨_, rfl, h'⟩

theorem peer_endpoint {x : CStr} {d : PeerSetting} (h : PeerLine V (b!"Endpoint=" ++ x) d) : ∃ e, d = .endpoint e ∧ V.endpoint x e := by
  cases h with
  | publicKey h _ => exact absurd (setting_eq (name := b!"Endpoint") h (by decide) (by decide)).1 (by decide)
  | allowedIPs h _ => exact absurd (setting_eq (name := b!"Endpoint") h (by decide) (by decide)).1 (by decide)
  | keepalive h _ => exact absurd (setting_eq (name := b!"Endpoint") h (by decide) (by decide)).1 (by decide)
  | presharedKey h _ => exact absurd (setting_eq (name := b!"Endpoint") h (by decide) (by decide)).1 (by decide)
  | endpoint h h' =>
    obtain ⟨-, rfl⟩ := setting_eq (name := b!"Endpoint") h (by decide) (by decide)
    exact ⟨_, rfl, h'⟩

theorem peer_ips {x : CStr} {d : PeerSetting} (h : PeerLine V (b!"AllowedIPs=" ++ x) d) : ∃ l, d = .allowedIPs l ∧ V.allowedIPs x l := by
  cases h with
  | publicKey h _ => exact absurd (setting_eq (name := b!"AllowedIPs") h (by decide) (by decide)).1 (by decide)
  | endpoint h _ => exact absurd (setting_eq (name := b!"AllowedIPs") h (by decide) (by decide)).1 (by decide)
  | keepalive h _ => exact absurd (setting_eq (name := b!"AllowedIPs") h (by decide) (by decide)).1 (by decide)
  | presharedKey h _ => exact absurd (setting_eq (name := b!"AllowedIPs") h (by decide) (by decide)).1 (by decide)
  | allowedIPs h h' =>
    obtain ⟨-, rfl⟩ := setting_eq (name := b!"AllowedIPs") h (by decide) (by decide)
    exact ⟨_, rfl, h'⟩

/-- The chunks after the lines of a section begin with a line without `=`. -/
theorem chunks_head {chunks : List (List CStr)} {secs : List Section} (h : List.Forall₂ (SectionSays V) chunks secs) {l : CStr} {ls : List CStr}
    (he : chunks.flatten = l :: ls) : c!"=" ∉ l := by
  cases h with
  | nil => simp at he
  | cons h1 h2 =>
    cases h1 with
    | interface g _ =>
      simp only [List.flatten_cons, List.cons_append, List.cons.injEq] at he
      exact he.1 ▸ noEq g (by decide)
    | peer g _ =>
      simp only [List.flatten_cons, List.cons_append, List.cons.injEq] at he
      exact he.1 ▸ noEq g (by decide)

/-- The six lines are an interface section with one line and a peer section with three. -/
theorem six {x1 x2 x3 x4 : CStr} {secs : List Section} {chunks : List (List CStr)} (h : List.Forall₂ (SectionSays V) chunks secs)
    (he : [b!"[Interface]", b!"PrivateKey=" ++ x1, b!"[Peer]", b!"PublicKey=" ++ x2, b!"Endpoint=" ++ x3, b!"AllowedIPs=" ++ x4] = chunks.flatten) :
    ∃ k K e l, secs = [.interface [.privateKey k], .peer [.publicKey K, .endpoint e, .allowedIPs l]] ∧ V.key x1 k ∧ V.key x2 K ∧ V.endpoint x3 e ∧ V.allowedIPs x4 l := by
  have m : ∀ x : CStr, c!"=" ∈ b!"PrivateKey=" ++ x ∧ c!"=" ∈ b!"PublicKey=" ++ x ∧ c!"=" ∈ b!"Endpoint=" ++ x ∧ c!"=" ∈ b!"AllowedIPs=" ++ x := fun x => by
    refine ⟨?_, ?_, ?_, ?_⟩ <;> exact List.mem_append_left _ (by decide)
  cases h with
  | nil => simp at he
  | @cons c s cs ss h1 h2 =>
    cases h1 with
    | peer hh hb =>
      simp only [List.flatten_cons, List.cons_append, List.cons.injEq] at he
      rw [← he.1] at hh
      exact absurd hh (by decide)
    | @interface hd body l hh hb =>
      simp only [List.flatten_cons, List.cons_append, List.cons.injEq] at he
      obtain ⟨-, he⟩ := he
      cases hb with
      | nil => exact absurd (m x1).1 (chunks_head h2 he.symm)
      | @cons b d bs ds hb1 hb2 =>
        simp only [List.cons_append, List.cons.injEq] at he
        obtain ⟨rfl, he⟩ := he
        obtain ⟨k, rfl, hk⟩ := dev_private (x := x1) hb1
        cases hb2 with
        | cons hb3 hb4 =>
          simp only [List.cons_append, List.cons.injEq] at he
          have := dev_hasEq hb3
          rw [← he.1] at this
          exact absurd this (by decide)
        | nil =>
          rw [List.nil_append] at he
          cases h2 with
          | nil => simp at he
          | cons h3 h4 =>
            cases h3 with
            | interface hh' hb' =>
              simp only [List.flatten_cons, List.cons_append, List.nil_append, List.cons.injEq] at he
              rw [← he.1] at hh'
              exact absurd hh' (by decide)
            | peer hh' hb' =>
              simp only [List.flatten_cons, List.cons_append, List.nil_append, List.cons.injEq] at he
              obtain ⟨-, he⟩ := he
              cases hb' with
              | nil => exact absurd (m x2).2.1 (chunks_head h4 he.symm)
              | cons p1 q1 =>
                simp only [List.cons_append, List.cons.injEq] at he
                obtain ⟨rfl, he⟩ := he
                obtain ⟨K, rfl, hK⟩ := peer_public (x := x2) p1
                cases q1 with
                | nil => exact absurd (m x3).2.2.1 (chunks_head h4 he.symm)
                | cons p2 q2 =>
                  simp only [List.cons_append, List.cons.injEq] at he
                  obtain ⟨rfl, he⟩ := he
                  obtain ⟨e, rfl, hee⟩ := peer_endpoint (x := x3) p2
                  cases q2 with
                  | nil => exact absurd (m x4).2.2.2 (chunks_head h4 he.symm)
                  | cons p3 q3 =>
                    simp only [List.cons_append, List.cons.injEq] at he
                    obtain ⟨rfl, he⟩ := he
                    obtain ⟨l', rfl, hl⟩ := peer_ips (x := x4) p3
                    have he := List.append_eq_nil_iff.1 he.symm
                    obtain ⟨rfl, he⟩ := he
                    cases q3
                    cases h4 with
                    | nil => exact ⟨k, K, e, l', rfl, hk, hK, hee, hl⟩
                    | cons h5 h6 =>
                      simp only [List.flatten_cons] at he
                      have he' := List.append_eq_nil_iff.1 (List.append_eq_nil_iff.1 he.symm).2
                      have := he'.1
                      subst this
                      cases h5

theorem last_colon {a b p q : CStr} (h : a ++ c!":" :: p = b ++ c!":" :: q) (hp : c!":" ∉ p) (hq : c!":" ∉ q) : a = b := by
  have h := congrArg List.reverse h
  rw [List.reverse_append, List.reverse_append, List.reverse_cons, List.reverse_cons, List.append_assoc, List.append_assoc] at h
  have t := congrArg (fun s => s.dropWhile (· ≠ c!":")) h
  have k1 := (Demo.takeWhile_colon p.reverse a.reverse c!":" (by rwa [List.mem_reverse])).2
  have k2 := (Demo.takeWhile_colon q.reverse b.reverse c!":" (by rwa [List.mem_reverse])).2
  rw [show ((p.reverse ++ ([c!":"] ++ a.reverse)).dropWhile (· ≠ c!":")) = c!":" :: a.reverse from k1,
    show ((q.reverse ++ ([c!":"] ++ b.reverse)).dropWhile (· ≠ c!":")) = c!":" :: b.reverse from k2] at t
  simp only [List.cons.injEq, true_and] at t
  exact List.reverse_injective t

/-- Whatever the server sends: if `wg` reads the lines left to it at all, they are the private key and one peer, with all of IPv4 and an endpoint at
demo.wireguard.com. -/
theorem c103_one_peer (env : DemoClient.Env) (k : Key) (hk : env.genkey.2 = rfc4648 k.toList ++ b!"\n") (content : List UInt8) (h : (DemoClient.run env).file = some content)
    (lines kept : List CStr) (sets : List (CStr × CStr)) (hl : ScriptLines content lines) (hs : Says lines kept sets)
    (portOf : List UInt8 → Option UInt16) (pton4 : List UInt8 → Option IP4) (pton6 : List UInt8 → Option IP6) (resolves : List UInt8 → List UInt8 → Endpoint → Prop)
    (secs : List Section) (hF : FileSays (docSyntax portOf pton4 pton6 resolves) kept secs) :
    ∃ K e port l, secs = [.interface [.privateKey k], .peer [.publicKey K, .endpoint e, .allowedIPs l]] ∧
      resolves b!"demo.wireguard.com" port e ∧ IsAllowedIPs pton4 pton6 b!"0.0.0.0/0" l := by
  obtain ⟨-, -, -, -, pub, port, ip, hr, rfl⟩ := run_file env content h
  rw [hk, chomp_key k b!"\n" (by decide)] at hl
  obtain ⟨h2, h3, h4, hc⟩ := readFields_oneLine hr
  obtain ⟨chunks, he, hch⟩ := hF
  rw [cleaned_kept h2 h3 h4 hl hs] at he
  obtain ⟨k', K, e, l, rfl, g1, -, g3, g4⟩ := six hch he
  cases Demo.same g1
  obtain ⟨-, host, p, ⟨-, hp⟩, hres⟩ := g3
  refine ⟨K, e, p, l, rfl, ?_, g4⟩
  have ec : cleaned (b!"demo.wireguard.com:" ++ port) = b!"demo.wireguard.com" ++ c!":" :: cleaned port := by
    unfold cleaned
    rw [List.takeWhile_append_of_pos (by decide), List.filter_append]
    rfl
  have hcc : c!":" ∉ cleaned port := fun hm => hc ((List.takeWhile_sublist _).subset (List.mem_of_mem_filter hm))
  rw [ec] at hp
  rcases hp with ⟨hp, -⟩ | ⟨-, hp, hpc⟩
  · simp at hp
  · have hh : b!"demo.wireguard.com" = host := last_colon hp hcc hpc
    exact hh ▸ hres

/-! ### With the demo server -/

theorem readFields_answer (pub : Key) (port i : Nat) :
    readFields (Demo.answer pub port (some i)) = some (b!"OK", rfc4648 pub.toList, decimal port, b!"192.168.4." ++ decimal i) := by
  set z := b!"OK:" ++ keyToBase64 pub ++ b!":" ++ showDec port ++ b!":" ++ Demo.ipText i with hz
  have hline : Demo.answer pub port (some i) = z ++ [10] := rfl
  have h10 : (10 : UInt8) ∉ z := by
    rw [hz, showDec_eq]
    simp only [List.mem_append, not_or]
    exact ⟨⟨⟨⟨⟨by decide, Demo.key_no pub 10 (by decide)⟩, by decide⟩, Demo.decimal_no port 10 (by decide)⟩, by decide⟩, Demo.ip_no i 10 (by decide)⟩
  have h0 : (0 : UInt8) ∉ z := by
    rw [hz, showDec_eq]
    simp only [List.mem_append, not_or]
    exact ⟨⟨⟨⟨⟨by decide, Demo.key_no pub 0 (by decide)⟩, by decide⟩, Demo.decimal_no port 0 (by decide)⟩, by decide⟩, Demo.ip_no i 0 (by decide)⟩
  have e1 : ((z ++ [10]).takeWhile (· ≠ 10)).filter (· ≠ 0) = b!"OK" ++ 58 :: (keyToBase64 pub ++ 58 :: (decimal port ++ 58 :: Demo.ipText i)) := by
    rw [(Demo.takeWhile_colon z [] 10 h10).1, List.filter_eq_self.2 (fun c hc => by simp only [ne_eq, decide_eq_true_eq]; rintro rfl; exact h0 hc), hz, showDec_eq]
    simp
  have k1 := Demo.takeWhile_colon b!"OK" (keyToBase64 pub ++ 58 :: (decimal port ++ 58 :: Demo.ipText i)) 58 (by decide)
  have k2 := Demo.takeWhile_colon (keyToBase64 pub) (decimal port ++ 58 :: Demo.ipText i) 58 (Demo.key_no pub 58 (by decide))
  have k3 := Demo.takeWhile_colon (decimal port) (Demo.ipText i) 58 (Demo.decimal_no port 58 (by decide))
  have hl : ¬ ((Demo.ipText i).getLast? = some 58 ∧ (58 : UInt8) ∉ (Demo.ipText i).dropLast) :=
    fun h => Demo.ip_no i 58 (by decide) (List.mem_of_getLast? h.1)
  unfold readFields field
  rw [hline, if_pos (by simp)]
  dsimp only
  rw [e1]
  simp only [k1.1, k1.2, List.drop_succ_cons, List.drop_zero, k2.1, k2.2, k3.1, k3.2]
  rw [if_neg hl, keyToBase64_rfc, Demo.ipText_eq]

theorem bare_of (P : UInt8 → Bool) (s : CStr) (h : ∀ c ∈ s, P c = true) (hP : ∀ c, P c = true → isSpace c = false ∧ c ≠ c!"#" ∧ c ≠ 0) : Bare s :=
  fun c hc => hP c (h c hc)

theorem cleaned_bare {s : CStr} (h : Bare s) : cleaned s = s := by rw [cleaned_eq h.hash, filter_bare h]

theorem digits_bare (n : Nat) : Bare (decimal n) := bare_digits (decimal_isDecimal n).2.1

/-- A client with a key of its own and the demo server: the script succeeds, has sent its public key and nothing else, and has written a file that gives it the address
the server reserved for it, and the server as its only peer. -/
theorem c103_tunnel {oldest : Demo.Oldest} (ho : Spec.Demo.IsOldest oldest) {pub : Key} {port : Nat} {d : Demo.Iface} (hd : Spec.Demo.Reaches oldest pub port d)
    (k K : Key) (env : DemoClient.Env) (h1 : env.genkey = (true, rfc4648 k.toList ++ b!"\n")) (h2 : env.connected = true)
    (h3 : env.pubkey (rfc4648 k.toList ++ b!"\n") = (true, rfc4648 K.toList ++ b!"\n")) (h4 : env.install = true)
    (h5 : env.reply (rfc4648 K.toList ++ b!"\n") = (Demo.session oldest pub port d (rfc4648 K.toList ++ b!"\n")).2) :
    (DemoClient.run env).exit = 0 ∧ (DemoClient.run env).sent = rfc4648 K.toList ++ b!"\n" ∧
    ∃ h content, Spec.Demo.addressOf (Demo.session oldest pub port d (rfc4648 K.toList ++ b!"\n")).1 K = some h ∧ (DemoClient.run env).file = some content ∧
      ∀ lines kept sets, ScriptLines content lines → Says lines kept sets →
        sets = [(b!"address", b!"192.168.4." ++ decimal h ++ b!"/24"), (b!"dns", b!"8.8.8.8, 8.8.4.4, 1.1.1.1, 1.0.0.1")] ∧
        ∀ (portOf : List UInt8 → Option UInt16) (pton4 : List UInt8 → Option IP4) (pton6 : List UInt8 → Option IP6) (resolves : List UInt8 → List UInt8 → Endpoint → Prop)
          (e : Endpoint) (zero : IP4), e ≠ .unset → resolves b!"demo.wireguard.com" (decimal port) e → pton4 b!"0.0.0.0" = some zero →
          FileSays (docSyntax portOf pton4 pton6 resolves) kept
            [.interface [.privateKey k], .peer [.publicKey pub, .endpoint e, .allowedIPs [{ addr := .v4 zero, cidr := 0 }]]] := by
  have hk0 : chomp env.genkey.2 = rfc4648 k.toList := by rw [h1]; exact chomp_key k b!"\n" (by decide)
  obtain ⟨⟨i, -, -, ha, hcr, -⟩, -⟩ := Demo.c95_client ho hd K []
  have hs : (Demo.session oldest pub port d (rfc4648 K.toList ++ b!"\n")).2 = Demo.answer pub port (some i) := by
    rcases Demo.session_cases ho pub port (Demo.reaches_fair ho hd) (rfc4648 K.toList ++ b!"\n") with ⟨k', j, -, -, -, -, -, he⟩ | ⟨hk, -⟩
    · rw [he] at hcr ⊢
      have := Demo.client_reads pub port j
      rw [show (Demo.clientReads (Demo.give (Demo.makeRoom oldest d) k' j, Demo.answer pub port (some j)).2) = _ from this] at hcr
      simp only [Option.some.injEq, Prod.mk.injEq, true_and] at hcr
      have hij : decimal j = decimal i := List.append_cancel_left hcr
      show Demo.answer pub port (some j) = _
      have hij : Demo.ipText j = Demo.ipText i := by rw [Demo.ipText_eq, Demo.ipText_eq, hij]
      simp only [Demo.answer, hij]
    · exact absurd (Demo.readLine_key K []) (hk K)
  have hrun : DemoClient.run env = { sent := rfc4648 K.toList ++ b!"\n", file := some (DemoClient.confText (rfc4648 k.toList) (rfc4648 pub.toList) (decimal port) (b!"192.168.4." ++ decimal i)), out := text1 ++ text2 ++ text3 ++ text4 ++ text5, exit := 0 } := by
    unfold DemoClient.run
    dsimp only
    rw [hk0, h3]
    dsimp only
    rw [h5, hs, readFields_answer]
    simp [h1, h2, h4]
  rw [hrun]
  refine ⟨rfl, rfl, i, _, ha, rfl, ?_⟩
  intro lines kept sets hl hS
  have hv : OneLine (b!"192.168.4." ++ decimal i) := by
    have := digits_bare i
    constructor
    · rw [List.mem_append, not_or]
      exact ⟨by decide, Demo.decimal_no i 10 (by decide)⟩
    · rw [List.mem_append, not_or]
      exact ⟨by decide, Demo.decimal_no i 0 (by decide)⟩
  have hp : OneLine (decimal port) := ⟨Demo.decimal_no port 10 (by decide), Demo.decimal_no port 0 (by decide)⟩
  constructor
  · obtain ⟨_, l2, _, _, _, e2, _, _, hC⟩ := conf_says (oneLine_key k) (oneLine_key pub) hp hv
    have hS' := hS
    rw [(scriptLines_iff _ _).1 hl] at hS'
    rw [(says_unique hS' hC).2]
    have pw : Quick.PlainWord (b!"192.168.4." ++ decimal i ++ b!"/24") := by
      refine ⟨by simp, ?_⟩
      intro c hc
      simp only [List.mem_append] at hc
      rcases hc with (hc | hc) | hc
      · exact (by decide : ∀ c ∈ b!"192.168.4.", isSpace c = false ∧ c ≠ c!"#" ∧ c ≠ c!"," ∧ c ≠ 0) c hc
      · exact (show ∀ c : UInt8, isDigit c = true → isSpace c = false ∧ c ≠ c!"#" ∧ c ≠ c!"," ∧ c ≠ 0 by apply forall_u8; decide +kernel) c ((decimal_isDecimal i).2.1 c hc)
      · exact (by decide : ∀ c ∈ b!"/24", isSpace c = false ∧ c ≠ c!"#" ∧ c ≠ c!"," ∧ c ≠ 0) c hc
    have gk : Quick.GoodKey b!"Address" := by unfold Quick.GoodKey; decide
    have r := (Quick.readLine_set (p := (b!"Address", b!"192.168.4." ++ decimal i ++ b!"/24")) gk pw.good).2
    have r' := Quick.setLine_value (p := (b!"Address", b!"192.168.4." ++ decimal i ++ b!"/24")) gk pw.good
    have e : anyLine b!"Address" (b!" " ++ (b!"192.168.4." ++ decimal i) ++ b!"/24") = b!"Address" ++ b!" = " ++ (b!"192.168.4." ++ decimal i ++ b!"/24") := by
      simp [anyLine]
    rw [e, r] at e2
    rw [← e2, ← (Quick.hasValue_iff _ _).1 r']
  · intro portOf pton4 pton6 resolves e zero he hres hz
    have hkept := cleaned_kept (oneLine_key pub) hp hv hl hS
    refine ⟨[[b!"[Interface]", b!"PrivateKey=" ++ rfc4648 k.toList], [b!"[Peer]", b!"PublicKey=" ++ rfc4648 pub.toList, b!"Endpoint=" ++ (b!"demo.wireguard.com:" ++ decimal port), b!"AllowedIPs=0.0.0.0/0"]], ?_, ?_⟩
    · rw [hkept, cleaned_bare (bare_key pub), cleaned_bare]
      · rfl
      · intro c hc
        rcases List.mem_append.1 hc with hc | hc
        · exact (by decide : ∀ c ∈ b!"demo.wireguard.com:", isSpace c = false ∧ c ≠ c!"#" ∧ c ≠ 0) c hc
        · exact digits_bare port c hc
    · refine .cons (.interface (by decide) (.cons (.privateKey ⟨rfc_ne_nil k, b!"PrivateKey", by decide, by simp⟩ rfl) .nil)) (.cons (.peer (by decide) ?_) .nil)
      refine .cons (.publicKey ⟨rfc_ne_nil pub, b!"PublicKey", by decide, by simp⟩ rfl) (.cons (.endpoint (v := b!"demo.wireguard.com:" ++ decimal port) ⟨by simp, b!"Endpoint", by decide, by simp⟩ ?_) (.cons (.allowedIPs (v := b!"0.0.0.0/0") ⟨by simp, b!"AllowedIPs", by decide, by simp⟩ ?_) .nil))
      · refine ⟨he, _, _, ⟨(decimal_isDecimal port).1, .inr ⟨by simp, ?_, Demo.decimal_no port 58 (by decide)⟩⟩, hres⟩
        simp
      · refine .inr ⟨by simp, [b!"0.0.0.0/0"], by simp, by decide, rfl, .cons ?_ .nil⟩
        exact ⟨b!"0.0.0.0", by decide, .inr ⟨by decide, _, hz, rfl⟩, .inr ⟨b!"0", 0, rfl, ⟨by decide, by decide, by decide⟩, by simp, rfl⟩⟩

/-! ### What is sent, and when nothing is written -/

/-- What is sent is the output of `wg pubkey` for the new key, or nothing. -/
theorem c103_sent (env : DemoClient.Env) : (DemoClient.run env).sent = [] ∨
    env.connected = true ∧ env.genkey.1 = true ∧ (DemoClient.run env).sent = (env.pubkey (chomp env.genkey.2 ++ b!"\n")).2 := by
  unfold DemoClient.run
  dsimp only
  split
  swap; · exact .inl rfl
  split
  swap; · exact .inl rfl
  rename_i h1 h2
  refine .inr ⟨h2, h1, ?_⟩
  split
  · split
    · rfl
    · split
      · split <;> rfl
      · rfl
  · rfl

/-- There are fields after `OK` if and only if the text begins with a whole line that is `OK` up to its first colon. -/
theorem ok_line (input : List UInt8) : (∃ b c d, readFields input = some (b!"OK", b, c, d)) ↔
    ∃ line tail, input = line ++ 10 :: tail ∧ (10 : UInt8) ∉ line ∧ Before c!":" (line.filter (· ≠ 0)) b!"OK" := by
  constructor
  · rintro ⟨b, c, d, h⟩
    unfold readFields at h
    split at h
    swap; · cases h
    rename_i hm
    simp only [Option.some.injEq, Prod.mk.injEq] at h
    obtain ⟨l, t, rfl, hn⟩ := List.eq_append_cons_of_mem hm
    rw [(Demo.takeWhile_colon l t 10 hn).1] at h
    exact ⟨l, t, rfl, hn, (Quick.before_iff _ _ _).2 h.1.symm⟩
  · rintro ⟨l, t, rfl, hn, hb⟩
    unfold readFields
    rw [if_pos (by simp), (Demo.takeWhile_colon l t 10 hn).1]
    have := (Quick.before_iff _ _ _).1 hb
    have hf : (field (l.filter (· ≠ 0))).1 = b!"OK" := this.symm
    exact ⟨_, _, _, by dsimp only; rw [hf]⟩

/-- The script ends with status 0 if and only if it has written the file, and otherwise with 1; it has written it if and only if no command failed and the answer begins with a whole line that is
`OK` up to its first colon. -/
theorem c103_ends (env : DemoClient.Env) :
    ((DemoClient.run env).exit = 0 ∧ (DemoClient.run env).file ≠ none ∨ (DemoClient.run env).exit = 1 ∧ (DemoClient.run env).file = none) ∧
    ((DemoClient.run env).file ≠ none ↔ env.genkey.1 = true ∧ env.connected = true ∧ (env.pubkey (chomp env.genkey.2 ++ b!"\n")).1 = true ∧ env.install = true ∧
      ∃ line tail, env.reply (env.pubkey (chomp env.genkey.2 ++ b!"\n")).2 = line ++ 10 :: tail ∧ (10 : UInt8) ∉ line ∧
        Before c!":" (line.filter (· ≠ 0)) b!"OK") := by
  rw [← ok_line]
  unfold DemoClient.run
  dsimp only
  by_cases h1 : env.genkey.1 = true
  swap; · simp [h1]
  by_cases h2 : env.connected = true
  swap; · simp [h1, h2]
  by_cases h3 : (env.pubkey (chomp env.genkey.2 ++ b!"\n")).1 = true
  swap; · simp [h1, h2, h3]
  rw [if_pos h1, if_pos h2, if_pos h3]
  cases hr : readFields (env.reply (env.pubkey (chomp env.genkey.2 ++ b!"\n")).2) with
  | none => simp
  | some q =>
    obtain ⟨s, b, c, d⟩ := q
    by_cases hs : s = b!"OK"
    · subst hs
      by_cases h4 : env.install = true
      · simp [h1, h2, h3, h4]
      · simp [h4]
    · simp only [if_neg hs]
      simp [hs]

/-! ### What a server can do -/

/-- An environment in which all commands succeed and the server sends `answer`. -/
def envWith (k : Key) (answer : List UInt8) : DemoClient.Env where
  genkey := (true, rfc4648 k.toList ++ b!"\n")
  connected := true
  pubkey _ := (true, b!"key\n")
  reply _ := answer
  install := true

def someKey : Key := Vector.replicate 32 7

/-- Nothing checks the address: a server can give the interface any number of addresses, with prefixes of its choice (a wide one makes the routes of a network go into the
tunnel even without `AllowedIPs`). -/
theorem c103_counterexample_address : ∃ content o, (DemoClient.run (envWith someKey b!"OK:BwcHBwcHBwcHBwcHBwcHBwcHBwcHBwcHBwcHBwcHBwc=:1:10.0.0.1/8,2001:db8::1/64,192.168.4.2\n")).file = some content ∧
    Quick.parseConf content = some o ∧ o.addresses = [b!"10.0.0.1/8", b!"2001:db8::1/64", b!"192.168.4.2/24"] := by
  refine ⟨_, _, rfl, rfl, ?_⟩
  decide +kernel

/-- An answer without fields: the script says it succeeded, but has written a file without address and public key. -/
theorem c103_counterexample_empty : ∃ content, (DemoClient.run (envWith someKey b!"OK\n")).file = some content ∧ (DemoClient.run (envWith someKey b!"OK\n")).exit = 0 ∧
    b!"PublicKey = \n" <:+: content ∧ b!"Address = /24\n" <:+: content := by
  refine ⟨_, rfl, rfl, ?_⟩
  decide +kernel

/-- The hypotheses of `c103_tunnel` are met. -/
example (k K pub : Key) (port : Nat) : ∃ env : DemoClient.Env, env.genkey = (true, rfc4648 k.toList ++ b!"\n") ∧ env.connected = true ∧
    env.pubkey (rfc4648 k.toList ++ b!"\n") = (true, rfc4648 K.toList ++ b!"\n") ∧ env.install = true ∧ Spec.Demo.IsOldest Demo.firstOldest ∧
    Spec.Demo.Reaches Demo.firstOldest pub port [] ∧
    env.reply (rfc4648 K.toList ++ b!"\n") = (Demo.session Demo.firstOldest pub port [] (rfc4648 K.toList ++ b!"\n")).2 :=
  ⟨⟨(true, rfc4648 k.toList ++ b!"\n"), true, fun _ => (true, rfc4648 K.toList ++ b!"\n"), fun s => (Demo.session Demo.firstOldest pub port [] s).2, true⟩,
    rfl, rfl, rfl, rfl, Demo.firstOldest_is, .fresh, rfl⟩

end WG.Props.DemoClient
