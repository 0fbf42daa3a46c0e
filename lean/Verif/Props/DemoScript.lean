import Verif.Model.DemoScript
import Verif.Props.DemoClient
import Verif.Spec.Command
/-!
# C104: what a server can make the demo client do

contrib/ncat-client-server/client.sh runs commands as root with words an unauthenticated server sent. Proved for every answer, of any length, every key
and all results of the commands.
-/
namespace WG.Props.DemoScript
open WG.DemoScript WG.Spec WG.Spec.Quick
open WG.Quick (chomp)
open WG.DemoClient (readFields OneLine)
open WG.Props.DemoClient (last_colon cleaned_bare digits_bare oneLine_key chomp_key readFields_answer readFields_oneLine)

/-- The commands, with the words of the server in their places; `false`: failure of this one does not matter. `words` is what becomes of the endpoint's route. -/
def full (default : Bool) (privatekey pub port ip : CStr) (words : List CStr) : List (Bool × Cmd) :=
  [(false, ⟨[b!"ip", b!"link", b!"del", b!"dev", b!"wg0"], []⟩),
   (true, ⟨[b!"ip", b!"link", b!"add", b!"dev", b!"wg0", b!"type", b!"wireguard"], []⟩),
   (true, ⟨[b!"wg", b!"set", b!"wg0", b!"private-key", b!"/dev/fd/63", b!"peer", pub, b!"allowed-ips", b!"0.0.0.0/0", b!"endpoint", b!"demo.wireguard.com:" ++ port, b!"persistent-keepalive", b!"25"],
     privatekey ++ b!"\n"⟩),
   (true, ⟨[b!"ip", b!"address", b!"add", ip ++ b!"/24", b!"dev", b!"wg0"], []⟩),
   (true, ⟨[b!"ip", b!"link", b!"set", b!"up", b!"dev", b!"wg0"], []⟩)] ++
  if default then
    [(false, ⟨[b!"ip", b!"route", b!"add"] ++ words, []⟩),
     (true, ⟨[b!"ip", b!"route", b!"add", b!"0/1", b!"dev", b!"wg0"], []⟩),
     (true, ⟨[b!"ip", b!"route", b!"add", b!"128/1", b!"dev", b!"wg0"], []⟩)]
  else []

/-- The commands of the list are run in order, up to the first that fails and matters, whose status is that of the script. -/
def InOrder (status : List Cmd → Cmd → Nat) (l : List (Bool × Cmd)) (cmds : List Cmd) (exit : Nat) : Prop :=
  (cmds = l.map (·.2) ∧ exit = 0 ∧ ∀ pre c post, l = pre ++ (true, c) :: post → status (pre.map (·.2)) c = 0) ∨
  ∃ pre c post, l = pre ++ (true, c) :: post ∧ cmds = pre.map (·.2) ++ [c] ∧ exit = status (pre.map (·.2)) c ∧ exit ≠ 0 ∧
    ∀ pre' c' post', pre = pre' ++ (true, c') :: post' → status (pre'.map (·.2)) c' = 0

def realize (done : List Cmd) : List (Bool × (List Cmd → Cmd)) → List (Bool × Cmd)
  | [] => []
  | (b, c) :: l => (b, c done) :: realize (done ++ [c done]) l

theorem steps_order (env : DemoScript.Env) (l : List (Bool × (List Cmd → Cmd))) (done : List Cmd) :
    ∃ cmds, (steps env done l).1 = done ++ cmds ∧ InOrder (fun d c => env.status (done ++ d) c) (realize done l) cmds (steps env done l).2 := by
  induction l generalizing done with
  | nil => exact ⟨[], by simp [steps], .inl ⟨rfl, rfl, by intro pre c post h; simp [realize] at h⟩⟩
  | cons x l ih =>
    obtain ⟨b, c⟩ := x
    by_cases h : b = true ∧ env.status done (c done) ≠ 0
    · refine ⟨[c done], by simp [steps, h], .inr ⟨[], c done, realize (done ++ [c done]) l, ?_, by simp, ?_, ?_, by simp⟩⟩
      · simp [realize, h.1]
      · simp [steps, h]
      · simp [steps, h]
    · have e : steps env done ((b, c) :: l) = steps env (done ++ [c done]) l := by simp only [steps]; rw [if_neg h]
      have h0 : b = true → env.status done (c done) = 0 := fun hb => by
        by_contra hn; exact h ⟨hb, hn⟩
      obtain ⟨cmds, h1, h2⟩ := ih (done ++ [c done])
      rw [e]
      refine ⟨c done :: cmds, by rw [h1]; simp, ?_⟩
      have lift : ∀ P : List (Bool × Cmd), (∀ pre c' post, P = pre ++ (true, c') :: post → env.status (done ++ [c done] ++ pre.map (·.2)) c' = 0) →
          ∀ pre c' post, (b, c done) :: P = pre ++ (true, c') :: post → env.status (done ++ pre.map (·.2)) c' = 0 := by
        intro P hP pre c' post hh
        cases pre with
        | nil =>
          simp only [List.nil_append, List.cons.injEq, Prod.mk.injEq] at hh
          rw [← hh.1.2]
          simpa using h0 hh.1.1
        | cons y pre =>
          simp only [List.cons_append, List.cons.injEq] at hh
          have := hP pre c' post hh.2
          rw [← hh.1]
          simpa using this
      rcases h2 with ⟨g1, g2, g3⟩ | ⟨pre, c', post, g1, g2, g3, g4, g5⟩
      · exact .inl ⟨by simp [realize, g1], g2, fun pre c' post hh => lift _ g3 pre c' post hh⟩
      · exact .inr ⟨(b, c done) :: pre, c', post, by simp [realize, g1], by simp [g2], by simpa using g3, g4, fun pre' c' post' hh => lift _ g5 pre' c' post' hh⟩

theorem realize_setup (env : DemoScript.Env) (privatekey pub port ip : CStr) :
    ∃ words, realize [] (setup env privatekey pub port ip) = full (decide (env.arg = b!"default-route")) privatekey pub port ip words := by
  unfold setup full
  by_cases h : env.arg = b!"default-route"
  · simp only [h, if_true, decide_true]
    exact ⟨_, rfl⟩
  · simp only [h, if_false, decide_false]
    exact ⟨[], rfl⟩

/-- All that is needed before a command is run: root, the connection, a key, and an answer that begins with a whole line that is `OK` up to its first colon. -/
def Answered (env : DemoScript.Env) (pub port ip : CStr) : Prop :=
  env.root = true ∧ env.connected = true ∧ env.genkey.1 = true ∧ (env.pubkey (chomp env.genkey.2 ++ b!"\n")).1 = true ∧
    readFields (env.reply (env.pubkey (chomp env.genkey.2 ++ b!"\n")).2) = some (b!"OK", pub, port, ip)

/-- Without an answer nothing is touched, and the script fails. -/
theorem c104_nothing (env : DemoScript.Env) (h : ¬ ∃ pub port ip, Answered env pub port ip) : (DemoScript.run env).cmds = [] ∧ (DemoScript.run env).exit = 1 := by
  unfold DemoScript.run
  dsimp only
  split
  swap; · exact ⟨rfl, rfl⟩
  split
  swap; · exact ⟨rfl, rfl⟩
  split
  swap; · exact ⟨rfl, rfl⟩
  split
  swap; · exact ⟨rfl, rfl⟩
  split
  · exact ⟨rfl, rfl⟩
  · split
    · rename_i h1 h2 h3 h4 _ s pub port ip hr hs
      subst hs
      exact absurd ⟨pub, port, ip, h1, h2, h3, h4, hr⟩ h
    · exact ⟨rfl, rfl⟩

/-- … which is: root, the connection, a key, and an answer that begins with a whole line that is `OK` up to its first colon. -/
theorem c104_answered (env : DemoScript.Env) : (∃ pub port ip, Answered env pub port ip) ↔
    env.root = true ∧ env.connected = true ∧ env.genkey.1 = true ∧ (env.pubkey (chomp env.genkey.2 ++ b!"\n")).1 = true ∧
      ∃ line tail, env.reply (env.pubkey (chomp env.genkey.2 ++ b!"\n")).2 = line ++ 10 :: tail ∧ (10 : UInt8) ∉ line ∧ Before c!":" (line.filter (· ≠ 0)) b!"OK" := by
  rw [← DemoClient.ok_line]
  constructor
  · rintro ⟨pub, port, ip, h1, h2, h3, h4, h5⟩
    exact ⟨h1, h2, h3, h4, pub, port, ip, h5⟩
  · rintro ⟨h1, h2, h3, h4, pub, port, ip, h5⟩
    exact ⟨pub, port, ip, h1, h2, h3, h4, h5⟩

theorem run_answered {env : DemoScript.Env} {pub port ip : CStr} (h : Answered env pub port ip) :
    DemoScript.run env = { sent := (env.pubkey (chomp env.genkey.2 ++ b!"\n")).2, cmds := (steps env [] (setup env (chomp env.genkey.2) pub port ip)).1, exit := (steps env [] (setup env (chomp env.genkey.2) pub port ip)).2 } := by
  obtain ⟨h1, h2, h3, h4, h5⟩ := h
  unfold DemoScript.run
  dsimp only
  rw [if_pos h1, if_pos h2, if_pos h3, if_pos h4, h5]
  rfl

/-- With an answer the commands are run in order, each word of the server being one word of its command, whatever is in it. -/
theorem c104_order (env : DemoScript.Env) (pub port ip : CStr) (h : Answered env pub port ip) :
    ∃ words, InOrder env.status (full (decide (env.arg = b!"default-route")) (chomp env.genkey.2) pub port ip words) (DemoScript.run env).cmds (DemoScript.run env).exit := by
  obtain ⟨words, hw⟩ := realize_setup env (chomp env.genkey.2) pub port ip
  obtain ⟨cmds, h1, h2⟩ := steps_order env (setup env (chomp env.genkey.2) pub port ip) []
  rw [run_answered h]
  refine ⟨words, ?_⟩
  dsimp only
  rw [hw] at h2
  rw [h1, List.nil_append]
  simpa using h2

theorem order_mem {status : List Cmd → Cmd → Nat} {l : List (Bool × Cmd)} {cmds : List Cmd} {exit : Nat} (h : InOrder status l cmds exit) : ∀ c ∈ cmds, ∃ b, (b, c) ∈ l := by
  rcases h with ⟨rfl, -, -⟩ | ⟨pre, c, post, rfl, rfl, -⟩
  · intro c hc
    obtain ⟨⟨b, c'⟩, hm, rfl⟩ := List.mem_map.1 hc
    exact ⟨b, hm⟩
  · intro x hx
    rw [List.mem_append, List.mem_singleton] at hx
    rcases hx with hx | rfl
    · obtain ⟨⟨b, c'⟩, hm, rfl⟩ := List.mem_map.1 hx
      exact ⟨b, List.mem_append_left _ hm⟩
    · exact ⟨true, by simp⟩

/-! ### What `wg set` is told -/

variable {V : ValueSyntax} {keyfile : CStr → Key → Prop}

theorem items_shape {devs : List DevSetting} {groups : List (Key × List PeerArg)} {s : DevSetting} {K : Key} {a b c : PeerArg}
    (h : cmdItems devs groups = [.dev s, .newPeer K, .arg a, .arg b, .arg c]) : devs = [s] ∧ groups = [(K, [a, b, c])] := by
  have tail : ∀ (l : List PeerArg) (g : List (Key × List PeerArg)), l.map CmdItem.arg ++ (g.flatMap fun g => CmdItem.newPeer g.1 :: g.2.map .arg) = [.arg a, .arg b, .arg c] → l = [a, b, c] ∧ g = [] := by
    intro l g h
    cases g with
    | nil =>
      rcases l with _ | ⟨l1, _ | ⟨l2, _ | ⟨l3, _ | ⟨l4, l⟩⟩⟩⟩ <;> simp at h
      exact ⟨by simp [h], rfl⟩
    | cons g gs =>
      rcases l with _ | ⟨l1, _ | ⟨l2, _ | ⟨l3, _ | ⟨l4, l⟩⟩⟩⟩ <;> simp at h
  unfold cmdItems at h
  cases devs with
  | nil =>
    cases groups <;> simp at h
  | cons d ds =>
    simp only [List.map_cons, List.cons_append, List.cons.injEq, CmdItem.dev.injEq] at h
    obtain ⟨rfl, h⟩ := h
    cases ds with
    | cons d' ds => simp at h
    | nil =>
      cases groups with
      | nil => simp at h
      | cons g gs =>
        simp only [List.map_nil, List.nil_append, List.flatMap_cons, List.cons_append, List.cons.injEq, CmdItem.newPeer.injEq] at h
        obtain ⟨h1, h2⟩ := h
        obtain ⟨h3, rfl⟩ := tail _ _ h2
        exact ⟨rfl, by rw [← h1, ← h3]⟩

theorem first_chunk {chunks : List (List CStr)} {items : List CmdItem} (h : List.Forall₂ (ItemWords V keyfile) chunks items) {w v : CStr} {rest : List CStr}
    (he : w :: v :: rest = chunks.flatten) (hw : w ≠ b!"remove") : ∃ i is cs, items = i :: is ∧ ItemWords V keyfile [w, v] i ∧ List.Forall₂ (ItemWords V keyfile) cs is ∧ rest = cs.flatten := by
  cases h with
  | nil => simp at he
  | @cons c i cs is h1 h2 =>
    have : c = [w, v] ∧ rest = cs.flatten := by
      cases h1 <;> simp_all
    obtain ⟨rfl, hr⟩ := this
    exact ⟨i, is, cs, rfl, h1, h2, hr⟩

theorem words_kw {w v : CStr} {i : CmdItem} (h : ItemWords V keyfile [w, v] i) :
    (w = b!"private-key" → ∃ k, i = .dev (.privateKey k) ∧ keyfile v k) ∧ (w = b!"peer" → ∃ k, i = .newPeer k ∧ V.key v k) ∧
    (w = b!"allowed-ips" → ∃ l, i = .arg (.allowedIPs l) ∧ V.allowedIPs (v.filter fun c => !isSpace c) l) ∧ (w = b!"endpoint" → ∃ e, i = .arg (.endpoint e) ∧ V.endpoint v e) ∧
    (w = b!"persistent-keepalive" → ∃ n, i = .arg (.keepalive n) ∧ V.keepalive v n) := by
  cases h with
  | listenPort _ => refine ⟨?_, ?_, ?_, ?_, ?_⟩ <;> intro h <;> exact absurd h (by decide)
  | fwmark _ => refine ⟨?_, ?_, ?_, ?_, ?_⟩ <;> intro h <;> exact absurd h (by decide)
  | presharedKey _ => refine ⟨?_, ?_, ?_, ?_, ?_⟩ <;> intro h <;> exact absurd h (by decide)
  | privateKey g => refine ⟨fun _ => ⟨_, rfl, g⟩, ?_, ?_, ?_, ?_⟩ <;> intro h <;> exact absurd h (by decide)
  | peer g => refine ⟨?_, fun _ => ⟨_, rfl, g⟩, ?_, ?_, ?_⟩ <;> intro h <;> exact absurd h (by decide)
  | allowedIPs g => refine ⟨?_, ?_, fun _ => ⟨_, rfl, g⟩, ?_, ?_⟩ <;> intro h <;> exact absurd h (by decide)
  | endpoint g => refine ⟨?_, ?_, ?_, fun _ => ⟨_, rfl, g⟩, ?_⟩ <;> intro h <;> exact absurd h (by decide)
  | keepalive g => refine ⟨?_, ?_, ?_, ?_, fun _ => ⟨_, rfl, g⟩⟩ <;> intro h <;> exact absurd h (by decide)

/-- The key in the file of this name, for a command. -/
def KeyIn (c : Cmd) (path : CStr) (k : Key) : Prop := path = b!"/dev/fd/63" ∧ c.fd = rfc4648 k.toList ++ b!"\n"

theorem wg_mem {default : Bool} {privatekey pub port ip : CStr} {words : List CStr} {b : Bool} {c : Cmd} (h : (b, c) ∈ full default privatekey pub port ip words)
    (hw : c.argv.head? = some b!"wg") : c = ⟨[b!"wg", b!"set", b!"wg0", b!"private-key", b!"/dev/fd/63", b!"peer", pub, b!"allowed-ips", b!"0.0.0.0/0", b!"endpoint", b!"demo.wireguard.com:" ++ port,
      b!"persistent-keepalive", b!"25"], privatekey ++ b!"\n"⟩ := by
  unfold full at h
  rw [List.mem_append] at h
  rcases h with h | h
  · simp only [List.mem_cons, Prod.mk.injEq, List.not_mem_nil, or_false] at h
    rcases h with ⟨-, rfl⟩ | ⟨-, rfl⟩ | ⟨-, rfl⟩ | ⟨-, rfl⟩ | ⟨-, rfl⟩
    · exact absurd hw (by simp)
    · exact absurd hw (by simp)
    · rfl
    · exact absurd hw (by simp)
    · exact absurd hw (by simp)
  · split at h
    · simp only [List.mem_cons, Prod.mk.injEq, List.not_mem_nil, or_false] at h
      rcases h with ⟨-, rfl⟩ | ⟨-, rfl⟩ | ⟨-, rfl⟩ <;> exact absurd hw (by simp)
    · simp at h

/-- Whatever the server sends: `wg` is only ever told to set `wg0`, and if it understands what it is told, that is the private key and one peer, with all of IPv4 and an endpoint at
demo.wireguard.com; no setting, peer or file besides. -/
theorem c104_one_peer (env : DemoScript.Env) (k : Key) (hk : env.genkey.2 = rfc4648 k.toList ++ b!"\n") (c : Cmd) (hc : c ∈ (DemoScript.run env).cmds) (hw : c.argv.head? = some b!"wg") :
    ∃ words, c.argv = b!"wg" :: b!"set" :: b!"wg0" :: words ∧
      ∀ (portOf : List UInt8 → Option UInt16) (pton4 : List UInt8 → Option IP4) (pton6 : List UInt8 → Option IP6) (resolves : List UInt8 → List UInt8 → Endpoint → Prop)
        (devs : List DevSetting) (groups : List (Key × List PeerArg)), CmdSays (docSyntax portOf pton4 pton6 resolves) (KeyIn c) words devs groups →
        ∃ K l e n port, devs = [.privateKey k] ∧ groups = [(K, [.allowedIPs l, .endpoint e, .keepalive n])] ∧
          IsAllowedIPs pton4 pton6 b!"0.0.0.0/0" l ∧ resolves b!"demo.wireguard.com" port e ∧ IsKeepalive b!"25" n.toNat := by
  by_cases hA : ∃ pub port ip, Answered env pub port ip
  swap
  · rw [(c104_nothing env hA).1] at hc; cases hc
  obtain ⟨pub, port, ip, hA⟩ := hA
  obtain ⟨ws, ho⟩ := c104_order env pub port ip hA
  obtain ⟨b, hm⟩ := order_mem ho c hc
  have hcol := (readFields_oneLine hA.2.2.2.2).2.2.2
  obtain rfl := wg_mem hm hw
  refine ⟨_, rfl, ?_⟩
  intro portOf pton4 pton6 resolves devs groups hS
  obtain ⟨chunks, he, hf⟩ := hS
  obtain ⟨i1, is, cs, e1, w1, hf, he⟩ := first_chunk hf he (by decide)
  obtain ⟨i2, is, cs, rfl, w2, hf, he⟩ := first_chunk hf he (by decide)
  obtain ⟨i3, is, cs, rfl, w3, hf, he⟩ := first_chunk hf he (by decide)
  obtain ⟨i4, is, cs, rfl, w4, hf, he⟩ := first_chunk hf he (by decide)
  obtain ⟨i5, is, cs, rfl, w5, hf, he⟩ := first_chunk hf he (by decide)
  have : is = [] := by
    cases hf with
    | nil => rfl
    | cons h1 h2 => exfalso; cases h1 <;> simp at he
  subst this
  obtain ⟨k', rfl, g1⟩ := (words_kw w1).1 rfl
  obtain ⟨K, rfl, g2⟩ := (words_kw w2).2.1 rfl
  obtain ⟨l, rfl, g3⟩ := (words_kw w3).2.2.1 rfl
  obtain ⟨e, rfl, g4⟩ := (words_kw w4).2.2.2.1 rfl
  obtain ⟨n, rfl, g5⟩ := (words_kw w5).2.2.2.2 rfl
  obtain ⟨rfl, rfl⟩ := items_shape e1
  have g1 := g1.2
  dsimp only at g1
  rw [hk, chomp_key k b!"\n" (by decide)] at g1
  obtain rfl := Demo.same (List.append_cancel_right g1)
  obtain ⟨-, host, p, ⟨-, hp⟩, hres⟩ := g4
  refine ⟨K, l, e, n, p, rfl, rfl, g3, ?_, g5⟩
  rcases hp with ⟨hp, -⟩ | ⟨-, hp, hpc⟩
  · simp at hp
  · exact last_colon (a := b!"demo.wireguard.com") (p := port) (b := host) (q := p) hp hcol hpc ▸ hres

/-! ### With the demo server -/

theorem session_answer {oldest : Demo.Oldest} (ho : Spec.Demo.IsOldest oldest) {pub : Key} {port : Nat} {d : Demo.Iface} (hd : Spec.Demo.Reaches oldest pub port d) (K : Key) :
    ∃ i, Spec.Demo.addressOf (Demo.session oldest pub port d (rfc4648 K.toList ++ b!"\n")).1 K = some i ∧
      (Demo.session oldest pub port d (rfc4648 K.toList ++ b!"\n")).2 = Demo.answer pub port (some i) := by
  obtain ⟨⟨i, -, -, ha, hcr, -⟩, -⟩ := Demo.c95_client ho hd K []
  refine ⟨i, ha, ?_⟩
  rcases Demo.session_cases ho pub port (Demo.reaches_fair ho hd) (rfc4648 K.toList ++ b!"\n") with ⟨k', j, -, -, -, -, -, he⟩ | ⟨hk, -⟩
  · rw [he] at hcr ⊢
    have := Demo.client_reads pub port j
    rw [show (Demo.clientReads (Demo.give (Demo.makeRoom oldest d) k' j, Demo.answer pub port (some j)).2) = _ from this] at hcr
    simp only [Option.some.injEq, Prod.mk.injEq, true_and] at hcr
    have hij : decimal j = decimal i := List.append_cancel_left hcr
    have hij : Demo.ipText j = Demo.ipText i := by rw [Demo.ipText_eq, Demo.ipText_eq, hij]
    simp only [Demo.answer, hij]
  · exact absurd (Demo.readLine_key K []) (hk K)

/-- A client with a key of its own and the demo server: the public key and nothing else is sent, the address put on the interface is the one the server reserved, and the arguments of
`wg set` say the private key and the server as peer. -/
theorem c104_tunnel {oldest : Demo.Oldest} (ho : Spec.Demo.IsOldest oldest) {pub : Key} {port : Nat} {d : Demo.Iface} (hd : Spec.Demo.Reaches oldest pub port d)
    (k K : Key) (env : DemoScript.Env) (h0 : env.root = true) (h1 : env.genkey = (true, rfc4648 k.toList ++ b!"\n")) (h2 : env.connected = true)
    (h3 : env.pubkey (rfc4648 k.toList ++ b!"\n") = (true, rfc4648 K.toList ++ b!"\n"))
    (h5 : env.reply (rfc4648 K.toList ++ b!"\n") = (Demo.session oldest pub port d (rfc4648 K.toList ++ b!"\n")).2) :
    (DemoScript.run env).sent = rfc4648 K.toList ++ b!"\n" ∧
    ∃ h words, Spec.Demo.addressOf (Demo.session oldest pub port d (rfc4648 K.toList ++ b!"\n")).1 K = some h ∧
      InOrder env.status (full (decide (env.arg = b!"default-route")) (rfc4648 k.toList) (rfc4648 pub.toList) (decimal port) (b!"192.168.4." ++ decimal h) words)
        (DemoScript.run env).cmds (DemoScript.run env).exit ∧
      ∀ c ∈ (DemoScript.run env).cmds, c.argv.head? = some b!"wg" → ∃ args, c.argv = b!"wg" :: b!"set" :: b!"wg0" :: args ∧
        ∀ (portOf : List UInt8 → Option UInt16) (pton4 : List UInt8 → Option IP4) (pton6 : List UInt8 → Option IP6) (resolves : List UInt8 → List UInt8 → Endpoint → Prop)
          (e : Endpoint) (zero : IP4), e ≠ .unset → resolves b!"demo.wireguard.com" (decimal port) e → pton4 b!"0.0.0.0" = some zero →
          CmdSays (docSyntax portOf pton4 pton6 resolves) (KeyIn c) args [.privateKey k]
            [(pub, [.allowedIPs [{ addr := .v4 zero, cidr := 0 }], .endpoint e, .keepalive 25])] := by
  have hk0 : chomp env.genkey.2 = rfc4648 k.toList := by rw [h1]; exact chomp_key k b!"\n" (by decide)
  obtain ⟨i, ha, hs⟩ := session_answer ho hd K
  have hA : Answered env (rfc4648 pub.toList) (decimal port) (b!"192.168.4." ++ decimal i) := by
    refine ⟨h0, h2, by rw [h1], ?_, ?_⟩
    · rw [hk0, h3]
    · rw [hk0, h3, h5, hs, readFields_answer]
  refine ⟨by rw [run_answered hA, hk0, h3], ?_⟩
  obtain ⟨words, ho⟩ := c104_order env _ _ _ hA
  rw [hk0] at ho
  refine ⟨i, words, ha, ho, ?_⟩
  intro c hc hw
  obtain ⟨b, hm⟩ := order_mem ho c hc
  obtain rfl := wg_mem hm hw
  refine ⟨_, rfl, ?_⟩
  intro portOf pton4 pton6 resolves e zero he hres hz
  refine ⟨[[b!"private-key", b!"/dev/fd/63"], [b!"peer", rfc4648 pub.toList], [b!"allowed-ips", b!"0.0.0.0/0"], [b!"endpoint", b!"demo.wireguard.com:" ++ decimal port], [b!"persistent-keepalive", b!"25"]], rfl, ?_⟩
  refine .cons (.privateKey ⟨rfl, rfl⟩) (.cons (.peer rfl) (.cons (.allowedIPs ?_) (.cons (.endpoint ?_) (.cons (.keepalive ?_) .nil))))
  · rw [show (b!"0.0.0.0/0").filter (fun c => !isSpace c) = b!"0.0.0.0/0" by decide]
    refine .inr ⟨by simp, [b!"0.0.0.0/0"], by simp, by decide, rfl, .cons ?_ .nil⟩
    exact ⟨b!"0.0.0.0", by decide, .inr ⟨by decide, _, hz, rfl⟩, .inr ⟨b!"0", 0, rfl, ⟨by decide, by decide, by decide⟩, by simp, rfl⟩⟩
  · exact ⟨he, _, _, ⟨(decimal_isDecimal port).1, .inr ⟨by simp, by simp, Demo.decimal_no port 58 (by decide)⟩⟩, hres⟩
  · exact .inr ⟨⟨by decide, by decide, by decide⟩, by decide⟩

/-! ### What a server can do -/

/-- The server sends `OK` and words that are no key and no port, and `wg set` refuses them. -/
def refusing : DemoScript.Env where
  root := true
  connected := true
  genkey := (true, rfc4648 DemoClient.someKey.toList ++ b!"\n")
  pubkey _ := (true, b!"key\n")
  reply _ := b!"OK:no key:no port:no address\n"
  status _ c := if c.argv.head? = some b!"wg" then 1 else 0
  route _ := []
  arg := []

/-- A server that answers nonsense makes the script fail after an interface `wg0` that was there before has been removed; a new one without a peer stays. -/
theorem c104_counterexample_lost : (DemoScript.run refusing).exit = 1 ∧ (DemoScript.run refusing).cmds.length = 3 ∧
    (DemoScript.run refusing).cmds.head? = some ⟨[b!"ip", b!"link", b!"del", b!"dev", b!"wg0"], []⟩ := by
  decide +kernel

/-- The hypotheses of `c104_tunnel` are met. -/
example (k K pub : Key) (port : Nat) : ∃ env : DemoScript.Env, env.root = true ∧ env.genkey = (true, rfc4648 k.toList ++ b!"\n") ∧ env.connected = true ∧
    env.pubkey (rfc4648 k.toList ++ b!"\n") = (true, rfc4648 K.toList ++ b!"\n") ∧ Spec.Demo.IsOldest Demo.firstOldest ∧ Spec.Demo.Reaches Demo.firstOldest pub port [] ∧
    env.reply (rfc4648 K.toList ++ b!"\n") = (Demo.session Demo.firstOldest pub port [] (rfc4648 K.toList ++ b!"\n")).2 :=
  ⟨⟨true, true, (true, rfc4648 k.toList ++ b!"\n"), fun _ => (true, rfc4648 K.toList ++ b!"\n"), fun s => (Demo.session Demo.firstOldest pub port [] s).2, fun _ _ => 0, fun _ => [], []⟩,
    rfl, rfl, rfl, rfl, Demo.firstOldest_is, .fresh, rfl⟩

end WG.Props.DemoScript
