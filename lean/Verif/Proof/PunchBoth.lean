import Verif.Proof.PunchClientMain
/-! Client and server of contrib/nat-hole-punching together. -/
namespace WG.PunchClient
open WG.Spec WG.Spec.PunchClient WG.Spec.Punch WG.Punch

/-! ### The trace is what the environment said -/

def Genuine (env : Env) (h : List Ev) : Prop := ∀ a c r b, h = a ++ (c, r) :: b → r = env.reply a c

theorem Genuine.nil (env : Env) : Genuine env [] := by
  intro a c r b h; simp at h

theorem Genuine.snoc {env : Env} {h : List Ev} (hg : Genuine env h) (c : Call) : Genuine env (h ++ [(c, env.reply h c)]) := by
  intro a c' r b he
  rcases List.eq_nil_or_concat b with rfl | ⟨b, y, rfl⟩
  · obtain ⟨h1, h2⟩ := List.append_inj' he rfl
    cases h2
    rw [h1]
  · rw [List.concat_eq_append, ← List.cons_append, ← List.append_assoc] at he
    exact hg a c' r b (List.append_inj' he rfl).1

theorem Genuine.round {env : Env} {h : List Ev} (hg : Genuine env h) (s : Session) (ps : List Peer) : Genuine env (round env s h ps).1 := by
  induction ps generalizing h with
  | nil => exact hg
  | cons p ps ih =>
    unfold PunchClient.round
    by_cases hs : p.seen
    · rw [if_pos hs]
      have := ih hg
      cases hr : PunchClient.round env s h ps with
      | mk h' res => rw [hr] at this; cases res <;> exact this
    · rw [if_neg hs]
      cases hu : unbase64 env p.key with
      | none => exact hg
      | some their =>
        simp only
        have g0 := hg.snoc (.send (packet s.port s.own their) s.server)
        generalize env.reply h (.send (packet s.port s.own their) s.server) = r0 at g0 ⊢
        cases hf0 : r0.failed with
        | some e => exact g0
        | none =>
          simp only
          have g1 := g0.snoc .recv
          generalize env.reply (h ++ [(Call.send (packet s.port s.own their) s.server, r0)]) .recv = r1 at g1 ⊢
          cases hf1 : r1.failed with
          | some e => exact g1
          | none =>
            simp only
            by_cases hl : (r1.out.take 34).length ≠ 34
            · rw [if_pos hl]
              have := ih g1
              cases hr : PunchClient.round env s (h ++ [(Call.send (packet s.port s.own their) s.server, r0)] ++ [(.recv, r1)]) ps with
              | mk h' res => rw [hr] at this; cases res <;> exact this
            · rw [if_neg hl]
              generalize h ++ [(Call.send (packet s.port s.own their) s.server, r0)] ++ [(.recv, r1)] = hh at g1 ⊢
              have g2 := g1.snoc (.run (setCommand s.iface p.key (r1.out.take 34)))
              generalize env.reply hh (.run (setCommand s.iface p.key (r1.out.take 34))) = r2 at g2 ⊢
              cases hf2 : r2.failed with
              | some e => exact g2
              | none =>
                simp only
                have := ih g2
                cases hr : PunchClient.round env s (hh ++ [(.run (setCommand s.iface p.key (r1.out.take 34)), r2)]) ps with
                | mk h' res => rw [hr] at this; cases res <;> exact this

theorem Genuine.rounds {env : Env} {h : List Ev} (hg : Genuine env h) (s : Session) (n : Nat) (ps : List Peer) :
    Genuine env (rounds env s n h ps).1 := by
  induction n generalizing ps h with
  | zero => exact hg
  | succ n ih =>
    unfold PunchClient.rounds
    have := hg.round s ps
    cases hr : PunchClient.round env s h ps with
    | mk h' res =>
    rw [hr] at this
    cases res with
    | error e => exact this
    | ok v =>
      obtain ⟨ps1, rep⟩ := v
      cases rep with
      | false => exact this
      | true => exact ih (this.snoc .sleep) ps1

theorem Genuine.connect {env : Env} {h : List Ev} (hg : Genuine env h) (n : Nat) (iface : CStr) (ip : List UInt8) (peers : List CStr) (own : PubKey) :
    Genuine env (connect env n iface ip peers own h).1 := by
  unfold PunchClient.connect
  have g1 := hg.snoc (.run (limited (b!"wg show " ++ iface ++ b!" listen-port")))
  have g2 := g1.snoc .socket
  simp only
  split
  · exact g1
  · split
    · exact g1
    · split
      · exact g2
      · split
        · exact g2.snoc _
        · exact (g2.snoc _).rounds _ _ _

theorem Genuine.identify {env : Env} {h : List Ev} (hg : Genuine env h) (n : Nat) (iface : CStr) (ip : List UInt8) (peers : List CStr) :
    Genuine env (identify env n iface ip peers h).1 := by
  unfold PunchClient.identify
  have g1 := hg.snoc (.run (limited (b!"ip link set " ++ iface ++ b!" up")))
  have g2 := g1.snoc (.run (limited (b!"wg show " ++ iface ++ b!" public-key")))
  simp only
  split
  · exact g1
  · split
    · exact g2
    · split
      · exact g2
      · split
        · exact g2
        · exact g2.connect _ _ _ _ _

theorem main_genuine (env : Env) (n : Nat) (args : List CStr) : Genuine env (main env n args).1 := by
  unfold main
  split
  · rename_i server iface more
    split
    · exact Genuine.nil env
    · have g1 : Genuine env [(Call.lookup server, env.reply [] (.lookup server))] := (Genuine.nil env).snoc (.lookup server)
      have g2 := g1.snoc (.run (limited (b!"wg show " ++ iface ++ b!" peers")))
      simp only
      split
      · exact g1
      · split
        · exact g2
        · split
          · exact g2
          · exact g2.identify _ _ _ _
  · exact Genuine.nil env

/-! ### What happens in a conversation -/

theorem talk_sends {env : Env} {s : Session} {keys : List CStr} {t : List Ev} (h : Talk env s keys t) (p d : List UInt8) (r : Reply)
    (hm : (Call.send p d, r) ∈ t) : ∃ k ∈ keys, ∃ their, unbase64 env k = some their ∧ p = packet s.port s.own their ∧ d = s.server := by
  induction h with
  | nil => simp at hm
  | sleep r' _ ih => simp at hm; exact ih hm
  | failed k their r' hk ht _ ih =>
    simp only [List.mem_cons, Prod.mk.injEq, Call.send.injEq] at hm
    rcases hm with ⟨⟨rfl, rfl⟩, -⟩ | hm
    · exact ⟨k, hk, their, ht, rfl, rfl⟩
    · exact ih hm
  | unanswered k their r' a hk ht _ ih =>
    simp only [List.mem_cons, Prod.mk.injEq, Call.send.injEq, reduceCtorEq, false_and, false_or] at hm
    rcases hm with ⟨⟨rfl, rfl⟩, -⟩ | hm
    · exact ⟨k, hk, their, ht, rfl, rfl⟩
    · exact ih hm
  | answered k their r' a c hk ht hf hl _ ih =>
    simp only [List.mem_cons, Prod.mk.injEq, Call.send.injEq, reduceCtorEq, false_and, false_or] at hm
    rcases hm with ⟨⟨rfl, rfl⟩, -⟩ | hm
    · exact ⟨k, hk, their, ht, rfl, rfl⟩
    · exact ih hm

theorem talk_sets {env : Env} {s : Session} {keys : List CStr} {t : List Ev} (h : Talk env s keys t) (t1 t2 : List Ev) (c : CStr) (r : Reply)
    (he : t = t1 ++ (.run c, r) :: t2) :
    ∃ k ∈ keys, ∃ their t0 r0 a, unbase64 env k = some their ∧ a.failed = none ∧ 34 ≤ a.out.length ∧
      t1 = t0 ++ [(.send (packet s.port s.own their) s.server, r0), (.recv, a)] ∧ c = setEndpoint s.iface k (placeIn a.out) := by
  induction h generalizing t1 with
  | nil => simp at he
  | sleep r' _ ih =>
    cases t1 with
    | nil => simp at he
    | cons e t1 =>
      simp only [List.cons_append, List.cons.injEq] at he
      obtain ⟨k, hk, their, t0, r0, a, h1, h2, h3, h4, h5⟩ := ih t1 he.2
      exact ⟨k, hk, their, e :: t0, r0, a, h1, h2, h3, by rw [h4]; rfl, h5⟩
  | failed k their r' hk ht _ ih =>
    cases t1 with
    | nil => simp at he
    | cons e t1 =>
      simp only [List.cons_append, List.cons.injEq] at he
      obtain ⟨k, hk, their, t0, r0, a, h1, h2, h3, h4, h5⟩ := ih t1 he.2
      exact ⟨k, hk, their, e :: t0, r0, a, h1, h2, h3, by rw [h4]; rfl, h5⟩
  | unanswered k their r' a hk ht _ ih =>
    match t1, he with
    | [], he => simp at he
    | [e], he => simp at he
    | e :: e' :: t1, he =>
      simp only [List.cons_append, List.cons.injEq] at he
      obtain ⟨k, hk, their, t0, r0, a, h1, h2, h3, h4, h5⟩ := ih t1 he.2.2
      exact ⟨k, hk, their, e :: e' :: t0, r0, a, h1, h2, h3, by rw [h4]; rfl, h5⟩
  | answered k their r' a c' hk ht hf hl _ ih =>
    match t1, he with
    | [], he => simp at he
    | [e], he => simp at he
    | [e, e'], he =>
      simp only [List.cons_append, List.nil_append, List.cons.injEq, Prod.mk.injEq, Call.run.injEq] at he
      obtain ⟨rfl, rfl, ⟨rfl, -⟩, -⟩ := he
      exact ⟨k, hk, their, [], r', a, ht, hf, hl, rfl, rfl⟩
    | e :: e' :: e'' :: t1, he =>
      simp only [List.cons_append, List.cons.injEq] at he
      obtain ⟨k, hk, their, t0, r0, a, h1, h2, h3, h4, h5⟩ := ih t1 he.2.2.2
      exact ⟨k, hk, their, e :: e' :: e'' :: t0, r0, a, h1, h2, h3, by rw [h4]; rfl, h5⟩

/-! ### The server at the other end -/

def countSends : List Ev → Nat
  | [] => 0
  | (.send _ _, _) :: t => countSends t + 1
  | (.recv, _) :: t => countSends t
  | (.lookup _, _) :: t => countSends t
  | (.run _, _) :: t => countSends t
  | (.socket, _) :: t => countSends t
  | (.filter _, _) :: t => countSends t
  | (.sleep, _) :: t => countSends t

theorem arrived_append (w : World) (a b : List Ev) (n : Nat) : arrived w n (a ++ b) = arrived w n a ++ arrived w (n + countSends a) b := by
  induction a generalizing n with
  | nil => simp [arrived, countSends]
  | cons e a ih =>
    obtain ⟨c, r⟩ := e
    cases c with
    | send p d =>
      simp only [List.cons_append, arrived, countSends, ih, List.append_assoc, List.cons_append]
      rw [show n + 1 + countSends a = n + (countSends a + 1) by omega]
    | _ => simp only [List.cons_append, arrived, countSends, ih]

theorem arrived_send (w : World) (h : List Ev) (p d : List UInt8) (r : Reply) :
    arrived w 0 (h ++ [(.send p d, r)]) = (arrived w 0 h ++ w.others (countSends h)) ++ [.datagram (p.drop 8) w.me] := by
  rw [arrived_append]
  simp [arrived]

theorem arrived_quiet (w : World) (h : List Ev) (n : Nat) (c : Call) (r : Reply) (hc : ∀ p d, c ≠ .send p d) :
    arrived w n (h ++ [(c, r)]) = arrived w n h := by
  rw [arrived_append]
  cases c with
  | send p d => exact absurd rfl (hc p d)
  | _ => simp [arrived]

theorem requests_append (a b : List Recv) : requests (a ++ b) = requests a ++ requests b := by simp [requests]

theorem request_packet (port : Nat) (own their : PubKey) (me : Place) (ho : own.length = 32) (ht : their.length = 32) :
    request (.datagram ((packet port own their).drop 8) me) = some ⟨me, own, their⟩ := by
  have e : (packet port own their).drop 8 = own ++ their := by
    rw [packet_eq _ _ _ ho ht]
    rfl
  rw [e]
  have e1 : (own ++ their).take 32 = own := List.take_left' ho
  have e2 : (own ++ their).take 64 = own ++ their := List.take_of_length_le (by simp [ho, ht])
  have e3 : (own ++ their).drop 32 = their := List.drop_left' ho
  simp only [request]
  rw [if_pos (by simp [ho, ht]), e1, e2, e3]

/-- Where the server hears keys from are addresses. -/
theorem heard_sized {env : Env} {w : World} (hc : Connected env w) (t : List Ev) (n : Nat) (q : Request) (hq : q ∈ requests (arrived w n t)) :
    q.sender.ip.length = 4 ∧ q.sender.port.length = 2 := by
  obtain ⟨-, hm1, hm2, ho, -⟩ := hc
  have aux : ∀ r q, request r = some q → (∀ data p, r = .datagram data p → p.ip.length = 4 ∧ p.port.length = 2) →
      q.sender.ip.length = 4 ∧ q.sender.port.length = 2 := by
    intro r q hr hs
    cases r with
    | error => simp [request] at hr
    | datagram data p =>
      simp only [request] at hr
      split at hr
      · cases hr; exact hs data p rfl
      · cases hr
  induction t generalizing n with
  | nil => simp [arrived, requests] at hq
  | cons e t ih =>
    obtain ⟨c, r⟩ := e
    cases c with
    | send p d =>
      simp only [arrived, requests_append, List.mem_append] at hq
      rcases hq with hq | hq
      · obtain ⟨x, hx, hx2⟩ := List.mem_filterMap.1 hq
        exact aux x q hx2 (by rintro data p rfl; exact ho n data p hx)
      · rw [show Recv.datagram (p.drop 8) w.me :: arrived w (n + 1) t = [Recv.datagram (p.drop 8) w.me] ++ arrived w (n + 1) t from rfl,
          requests_append, List.mem_append] at hq
        rcases hq with hq | hq
        · obtain ⟨x, hx, hx2⟩ := List.mem_filterMap.1 hq
          rw [List.mem_singleton] at hx
          exact aux x q hx2 (by rintro data p' rfl; cases hx; exact ⟨hm1, hm2⟩)
        · exact ih _ hq
    | _ => exact ih n hq

theorem lastHeard_mem (rs : List Request) (k : PubKey) (p : Place) (h : lastHeard rs k = some p) : ∃ q ∈ rs, q.sender = p := by
  unfold lastHeard at h
  obtain ⟨q, hq, rfl⟩ := Option.map_eq_some_iff.1 h
  exact ⟨q, List.mem_reverse.1 (List.mem_of_find?_eq_some hq), rfl⟩

/-- All keys the server can hear are in this list. -/
def Within (w : World) (S : List PubKey) (own : PubKey) : Prop := own ∈ S ∧ S.length ≤ 65536 ∧ ∀ n, ∀ k ∈ heard (requests (w.others n)), k ∈ S

theorem arrived_within {w : World} {S : List PubKey} {own : PubKey} (hw : Within w S own) (t : List Ev) (n : Nat)
    (hs : ∀ p d r, (Call.send p d, r) ∈ t → ∃ port their, own.length = 32 ∧ their.length = 32 ∧ p = packet port own their) :
    ∀ k ∈ heard (requests (arrived w n t)), k ∈ S := by
  induction t generalizing n with
  | nil => intro k hk; simp [arrived, requests, heard] at hk
  | cons e t ih =>
    have ih' := fun m => ih m fun p d r hm => hs p d r (by simp [hm])
    obtain ⟨c, r⟩ := e
    cases c with
    | send p d =>
      intro k hk
      obtain ⟨port, their, ho, ht, rfl⟩ := hs p d r (by simp)
      have e1 : arrived w n ((Call.send (packet port own their) d, r) :: t) =
          w.others n ++ ([.datagram ((packet port own their).drop 8) w.me] ++ arrived w (n + 1) t) := rfl
      rw [e1, requests_append, requests_append] at hk
      have e2 : requests [.datagram ((packet port own their).drop 8) w.me] = [⟨w.me, own, their⟩] := by
        simp only [requests, List.filterMap_cons, request_packet port own their w.me ho ht, List.filterMap_nil]
      rw [e2] at hk
      simp only [heard, List.map_append, List.mem_append, List.map_cons, List.map_nil, List.mem_singleton] at hk
      rcases hk with hk | rfl | hk
      · exact hw.2.2 n k hk
      · exact hw.1
      · exact ih' (n + 1) k hk
    | _ => exact fun k hk => ih' n k hk

theorem dedup_within {l S : List PubKey} (h : ∀ k ∈ l, k ∈ S) : l.dedup.length ≤ S.length :=
  ((List.nodup_dedup l).subperm fun k hk => h k (List.mem_dedup.1 hk)).length_le

/-- The answer to a request, as the client gets it. -/
theorem connected_answer {env : Env} {w : World} (hc : Connected env w) {S : List PubKey} {own : PubKey} (hw : Within w S own)
    (h : List Ev) (port : Nat) (their : PubKey) (d : List UInt8) (r : Reply) (ho : own.length = 32) (ht : their.length = 32)
    (h0 : their ≠ List.replicate 32 0)
    (hs : ∀ k ∈ heard (requests (arrived w 0 (h ++ [(Call.send (packet port own their) d, r)]))), k ∈ S) :
    let h' := h ++ [(Call.send (packet port own their) d, r)]
    env.reply h' .recv = { out := w.header h' ++ answer (lastHeard (requests (arrived w 0 h')) their) } := by
  intro h'
  obtain ⟨s, hs1, hs2⟩ := hc.2.2.2.2 h' (packet port own their) d r (by simp [h']) (by rw [packet_eq _ _ _ ho ht]; simp [udp, ho, ht])
  rw [hs2]
  have e := arrived_send w h (packet port own their) d r
  have hq := request_packet port own their w.me ho ht
  have hreq : requests (arrived w 0 h') = requests (arrived w 0 h ++ w.others (countSends h)) ++ [⟨w.me, own, their⟩] := by
    rw [show arrived w 0 h' = _ from e, requests_append (arrived w 0 h ++ w.others (countSends h))]
    congr 1
    simp only [requests, List.filterMap_cons, hq, List.filterMap_nil]
  have hl : (loop start (arrived w 0 h')).getLast? =
      some (turn (after start (arrived w 0 h ++ w.others (countSends h))) (.datagram ((packet port own their).drop 8) w.me)).2 := by
    rw [show arrived w 0 h' = _ from e, loop_append]
    simp [loop]
  rw [hl, turn_answer _ _ _ hq, ← hreq] at hs1
  obtain ⟨x, z, hr⟩ := room_queue (requests (arrived w 0 h')) (by
    have := dedup_within hs
    have := hw.2.1
    unfold maxEntries; exact Nat.le_trans ‹_› this)
  rw [room_known hr their h0] at hs1
  simp only [Option.some.injEq, List.cons.injEq, and_true] at hs1
  rw [← hs1]

theorem placeIn_header (hd : List UInt8) (p : Place) (h : hd.length = 28) (h4 : p.ip.length = 4) (h2 : p.port.length = 2) :
    placeIn (hd ++ answer (some p)) = p := by
  unfold placeIn answer
  have e1 : (hd ++ (p.ip ++ p.port)).drop 28 = p.ip ++ p.port := List.drop_left' h
  have e2 : (hd ++ (p.ip ++ p.port)).drop 32 = p.port := by
    rw [← List.append_assoc]
    exact List.drop_left' (by simp [h, h4])
  rw [e1, e2, List.take_left' h4, List.take_of_length_le (by omega)]

theorem arrived_first (w : World) (h : List Ev) (p d : List UInt8) (r : Reply) : ∀ q ∈ requests (w.others 0), q ∈ requests (arrived w 0 (h ++ [(.send p d, r)])) := by
  intro q hq
  induction h with
  | nil => simp only [List.nil_append, arrived, requests_append, List.mem_append]; exact Or.inl hq
  | cons e h ih =>
    obtain ⟨c, r'⟩ := e
    cases c with
    | send p' d' => simp only [List.cons_append, arrived, requests_append, List.mem_append]; exact Or.inl hq
    | _ => exact ih

/-- With all peers heard, one round is enough. -/
theorem round_finishes {env : Env} {w : World} (hc : Connected env w) (hok : ∀ h c, (env.reply h c).failed = none) {S : List PubKey} {s : Session}
    (hw : Within w S s.own) (ho : s.own.length = 32) (ps : List Peer)
    (hps : ∀ p ∈ ps, ∃ their, unbase64 env p.key = some their ∧ their.length = 32 ∧ their ≠ List.replicate 32 0 ∧ their ∈ heard (requests (w.others 0)))
    (h : List Ev) (hh : ∀ p d r, (Call.send p d, r) ∈ h → ∃ port their, s.own.length = 32 ∧ their.length = 32 ∧ p = packet port s.own their) :
    ∃ ps', (round env s h ps).2 = .ok (ps', false) := by
  induction ps generalizing h with
  | nil => exact ⟨[], rfl⟩
  | cons p ps ih =>
    have ih' := ih fun p hp => hps p (by simp [hp])
    unfold round
    by_cases hs : p.seen
    · rw [if_pos hs]
      obtain ⟨ps', he⟩ := ih' h hh
      cases hr : round env s h ps with
      | mk h' res =>
      rw [hr] at he
      simp only at he
      subst he
      exact ⟨_, rfl⟩
    · rw [if_neg hs]
      obtain ⟨their, hu, ht, h0, hmem⟩ := hps p (by simp)
      rw [hu]
      simp only
      have e0 := hok h (.send (packet s.port s.own their) s.server)
      generalize env.reply h (.send (packet s.port s.own their) s.server) = r0 at e0 ⊢
      rw [e0]
      simp only
      have hh1 : ∀ p d r, (Call.send p d, r) ∈ h ++ [(Call.send (packet s.port s.own their) s.server, r0)] →
          ∃ port their, s.own.length = 32 ∧ their.length = 32 ∧ p = packet port s.own their := by
        intro p d r hm
        simp only [List.mem_append, List.mem_singleton, Prod.mk.injEq, Call.send.injEq] at hm
        rcases hm with hm | ⟨⟨rfl, rfl⟩, -⟩
        · exact hh p d r hm
        · exact ⟨s.port, their, ho, ht, rfl⟩
      have ha := connected_answer hc hw h s.port their s.server r0 ho ht h0 (arrived_within hw _ 0 hh1)
      simp only at ha
      have hlast : ∃ pl, lastHeard (requests (arrived w 0 (h ++ [(Call.send (packet s.port s.own their) s.server, r0)]))) their = some pl := by
        cases hl : lastHeard (requests (arrived w 0 (h ++ [(Call.send (packet s.port s.own their) s.server, r0)]))) their with
        | some pl => exact ⟨pl, rfl⟩
        | none =>
          rw [lastHeard_none] at hl
          refine absurd ?_ hl
          obtain ⟨q, hq, he⟩ := List.mem_map.1 hmem
          exact List.mem_map.2 ⟨q, arrived_first w h _ _ _ q hq, he⟩
      obtain ⟨pl, hl⟩ := hlast
      obtain ⟨q, hq, rfl⟩ := lastHeard_mem _ _ _ hl
      obtain ⟨h4, h2⟩ := heard_sized hc _ 0 q hq
      rw [hl] at ha
      rw [ha]
      simp only
      have hlen : ¬ ((w.header (h ++ [(Call.send (packet s.port s.own their) s.server, r0)]) ++ answer (some q.sender)).take 34).length ≠ 34 := by
        simp [answer, hc.1, h4, h2]
      rw [if_neg hlen, hok]
      simp only
      have hh3 : ∀ c1 r1 c2 r2, (∀ p d, c1 ≠ Call.send p d) → (∀ p d, c2 ≠ Call.send p d) → ∀ p d r,
          (Call.send p d, r) ∈ h ++ [(Call.send (packet s.port s.own their) s.server, r0)] ++ [(c1, r1)] ++ [(c2, r2)] →
          ∃ port their, s.own.length = 32 ∧ their.length = 32 ∧ p = packet port s.own their := by
        intro c1 r1 c2 r2 n1 n2 p d r hm
        rcases List.mem_append.1 hm with hm | hm
        · rcases List.mem_append.1 hm with hm | hm
          · exact hh1 p d r hm
          · rw [List.mem_singleton] at hm; cases hm; exact absurd rfl (n1 p d)
        · rw [List.mem_singleton] at hm; cases hm; exact absurd rfl (n2 p d)
      have fin : ∀ H, (∀ p d r, (Call.send p d, r) ∈ H → ∃ port their, s.own.length = 32 ∧ their.length = 32 ∧ p = packet port s.own their) →
          ∃ ps', (match round env s H ps with
            | (h, .ok (ps, rep)) => ((h, .ok ({ p with seen := true } :: ps, rep)) : List Ev × Except End (List Peer × Bool))
            | (h, .error e) => (h, .error e)).2 = .ok (ps', false) := by
        intro H hH
        obtain ⟨ps', he⟩ := ih' H hH
        generalize round env s H ps = R at he ⊢
        obtain ⟨h', res⟩ := R
        simp only at he
        subst he
        exact ⟨_, rfl⟩
      exact fin _ (hh3 _ _ _ _ (by intro _ _; exact Call.noConfusion) (by intro _ _; exact Call.noConfusion))

end WG.PunchClient
