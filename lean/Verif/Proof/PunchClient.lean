import Verif.Spec.PunchClient
import Verif.Proof.Punch
import Verif.Proof.Show
/-! The client of contrib/nat-hole-punching. -/
namespace WG.PunchClient
open WG.Spec WG.Spec.PunchClient WG.Spec.Punch WG.Punch

/-! ### The filter -/

theorem bigEndian_append (a : List UInt8) (b : UInt8) : bigEndian (a ++ [b]) = bigEndian a * 256 + b.toNat := by
  simp [bigEndian, List.foldl_append]

theorem bigEndian_inj (a b : List UInt8) (hl : a.length = b.length) (h : bigEndian a = bigEndian b) : a = b := by
  induction a using List.reverseRecOn generalizing b with
  | nil => exact (List.length_eq_zero_iff.1 hl.symm).symm
  | append_singleton a x ih =>
    rcases List.eq_nil_or_concat b with rfl | ⟨b, y, rfl⟩
    · simp at hl
    · rw [List.concat_eq_append] at hl h ⊢
      rw [bigEndian_append, bigEndian_append] at h
      have hx := x.toNat_lt
      have hy := y.toNat_lt
      have h1 : bigEndian a = bigEndian b := by omega
      have h2 : x.toNat = y.toNat := by omega
      rw [ih b (by simpa using hl) h1, UInt8.toNat_inj.1 h2]

theorem be16_val (n : Nat) (h : n < 65536) : bigEndian (be16 n) = n := by
  simp [bigEndian, be16, UInt8.toNat_ofNat']
  omega

theorem filter_accepts (pkt ip : List UInt8) (port : Nat) (hip : ip.length = 4) (hp : port < 65536) :
    bpf pkt (program port (bigEndian ip)) 0 ≠ 0 ↔
      24 ≤ pkt.length ∧ (pkt.drop 12).take 4 = ip ∧ (pkt.drop 20).take 2 = [194, 254] ∧ (pkt.drop 22).take 2 = be16 port := by
  have l2 : ∀ k, k + 2 ≤ pkt.length → ((pkt.drop k).take 2).length = 2 := by intro k hk; simp; omega
  have l4 : 16 ≤ pkt.length → ((pkt.drop 12).take 4).length = 4 := by intro hk; simp; omega
  unfold program
  rw [bpf]
  unfold load
  by_cases h1 : 12 + 4 ≤ pkt.length
  · rw [if_pos h1]
    simp only
    rw [bpf]
    by_cases e1 : bigEndian ((pkt.drop 12).take 4) = bigEndian ip
    · have e1' := bigEndian_inj _ _ (by rw [l4 h1, hip]) e1
      rw [if_pos e1, List.drop_zero, bpf]
      unfold load
      by_cases h2 : 20 + 2 ≤ pkt.length
      · rw [if_pos h2]
        simp only
        rw [bpf]
        by_cases e2 : bigEndian ((pkt.drop 20).take 2) = 49918
        · have e2' : (pkt.drop 20).take 2 = [194, 254] := bigEndian_inj _ _ (l2 20 h2) (by rw [e2]; rfl)
          rw [if_pos e2, List.drop_zero, bpf]
          unfold load
          by_cases h3 : 22 + 2 ≤ pkt.length
          · rw [if_pos h3]
            simp only
            rw [bpf]
            by_cases e3 : bigEndian ((pkt.drop 22).take 2) = port
            · have e3' : (pkt.drop 22).take 2 = be16 port := bigEndian_inj _ _ (by rw [l2 22 h3]; rfl) (by rw [e3, be16_val _ hp])
              rw [if_pos e3, List.drop_zero, bpf]
              exact ⟨fun _ => ⟨h3, e1', e2', e3'⟩, fun _ => by decide⟩
            · rw [if_neg e3]
              simp only [List.drop_succ_cons, List.drop_zero]
              rw [bpf]
              refine ⟨fun h => absurd rfl h, fun h => absurd ?_ e3⟩
              rw [h.2.2.2, be16_val _ hp]
          · rw [if_neg h3]
            exact ⟨fun h => absurd rfl h, fun h => absurd h.1 (by omega)⟩
        · rw [if_neg e2]
          simp only [List.drop_succ_cons, List.drop_zero]
          rw [bpf]
          refine ⟨fun h => absurd rfl h, fun h => absurd ?_ e2⟩
          rw [h.2.2.1]; rfl
      · rw [if_neg h2]
        exact ⟨fun h => absurd rfl h, fun h => absurd h.1 (by omega)⟩
    · rw [if_neg e1]
      simp only [List.drop_succ_cons, List.drop_zero]
      rw [bpf]
      refine ⟨fun h => absurd rfl h, fun h => absurd ?_ e1⟩
      rw [h.2.1]
  · rw [if_neg h1]
    exact ⟨fun h => absurd rfl h, fun h => absurd h.1 (by omega)⟩

/-! ### The listing -/

theorem fgets_line (k rest : List UInt8) (h44 : k.length = 44) (hk : ∀ c ∈ k, c ≠ 10) : fgets 44 (k ++ rest) = (k, rest) := by
  unfold fgets
  have e : (k ++ rest).take 44 = k := List.take_left' h44
  rw [e]
  have : k.findIdx? (fun c => decide (c = 10)) = none := by
    rw [List.findIdx?_eq_none_iff]
    intro c hc
    simpa using hk c hc
  rw [this]
  simp only
  rw [List.drop_left' h44]

theorem fgets_newline (rest : List UInt8) : fgets 44 (10 :: rest) = ([10], rest) := by
  simp [fgets, List.findIdx?_cons]

theorem cstr_clean (k : List UInt8) (h : ∀ c ∈ k, c ≠ 0) : cstr k = k := by
  unfold cstr
  induction k with
  | nil => rfl
  | cons c k ih =>
    rw [List.takeWhile_cons, if_pos (by simpa using h c (by simp)), ih fun x hx => h x (by simp [hx])]

/-- The keys, one in each line. -/
theorem readPeers_lines (ks : List CStr) (hk : ∀ k ∈ ks, k.length = 44 ∧ ∀ c ∈ k, c ≠ 10 ∧ c ≠ 0) (fuel total : Nat)
    (hf : (ks.map (· ++ [10])).flatten.length ≤ fuel) :
    readPeers fuel total (ks.map (· ++ [10])).flatten =
      if total + ks.length < maxPeers ∨ ks = [] then some ks else none := by
  induction ks generalizing fuel total with
  | nil => cases fuel <;> simp [readPeers]
  | cons k ks ih =>
    obtain ⟨h44, hc⟩ := hk k (by simp)
    have hks : ∀ k ∈ ks, k.length = 44 ∧ ∀ c ∈ k, c ≠ 10 ∧ c ≠ 0 := fun x hx => hk x (by simp [hx])
    simp only [List.map_cons, List.flatten_cons, List.append_assoc, List.length_append] at hf ⊢
    obtain ⟨f, rfl⟩ : ∃ f, fuel = f + 2 := ⟨fuel - 2, by simp at hf; omega⟩
    have hne : k ++ ([10] ++ (ks.map (· ++ [10])).flatten) ≠ [] := by
      intro hcon
      have := congrArg List.length hcon
      simp at this
    have hnk : k.getLast? ≠ some 10 := by
      intro hcon
      exact (hc 10 (List.mem_of_getLast? hcon)).1 rfl
    rw [readPeers, if_neg hne]
    by_cases ht : total ≥ maxPeers
    · rw [if_pos ht, if_neg]
      simp; omega
    · rw [if_neg ht, fgets_line k _ h44 (fun c h => (hc c h).1)]
      simp only
      rw [cstr_clean k (fun c h => (hc c h).2), if_neg (by omega)]
      have e : chomp k = k := by unfold chomp; rw [if_neg hnk]
      rw [e, readPeers, if_neg (by simp)]
      by_cases ht2 : total + 1 ≥ maxPeers
      · rw [if_pos ht2]
        rw [if_neg (by simp; omega)]
        rfl
      · rw [if_neg ht2, List.singleton_append, fgets_newline]
        simp only
        have h1 : (cstr [10]).length ≠ 44 ∧ (cstr [10]).length ≠ 45 := by decide
        rw [if_pos h1, ih hks f (total + 1) (by simp at hf ⊢; omega)]
        by_cases hks0 : ks = []
        · subst hks0
          rw [if_pos (Or.inr rfl), if_pos (Or.inl (by simp; omega))]
          rfl
        · by_cases hb : total + 1 + ks.length < maxPeers
          · rw [if_pos (Or.inl hb), if_pos (Or.inl (by simp; omega))]; rfl
          · rw [if_neg (by simp [hks0]; omega), if_neg (by simp; omega)]; rfl

/-! ### Texts -/

theorem inetNtoa_eq (a b c d : UInt8) :
    inetNtoa [a, b, c, d] = decimal a.toNat ++ b!"." ++ decimal b.toNat ++ b!"." ++ decimal c.toNat ++ b!"." ++ decimal d.toNat := by
  simp [inetNtoa, showDec_eq]

theorem setCommand_eq (iface key : CStr) (reply : List UInt8) (h : 34 ≤ reply.length) :
    setCommand iface key reply = setEndpoint iface key (placeIn reply) := by
  have hl : ((reply.drop 28).take 4).length = 4 := by simp; omega
  obtain ⟨a, b, c, d, he⟩ : ∃ a b c d, (reply.drop 28).take 4 = [a, b, c, d] := by
    match hm : (reply.drop 28).take 4, hl with
    | [a, b, c, d], _ => exact ⟨a, b, c, d, rfl⟩
  unfold setCommand setEndpoint placeIn endpoint limited
  rw [he, inetNtoa_eq, showDec_eq]
  simp only [List.append_assoc]
  rfl

theorem packet_eq (port : Nat) (own their : PubKey) (ho : own.length = 32) (ht : their.length = 32) :
    packet port own their = udp port 49918 (own ++ their) := by
  unfold packet udp be16
  have : (own ++ their).length = 64 := by simp [ho, ht]
  rw [this]
  simp

theorem set_prefix (iface key : CStr) (p : Place) : b!"wg set " <+: setEndpoint iface key p := by
  unfold setEndpoint
  have : b!"wg set " = (b!"wg set ").take 2046 := by rfl
  rw [this, List.append_assoc, List.append_assoc, List.append_assoc, List.append_assoc, List.take_append]
  exact List.prefix_append _ _

theorem show_no_set (x : CStr) : ¬ b!"wg set " <+: limited (b!"wg show " ++ x) := by
  rintro ⟨t, ht⟩
  have := congrArg (fun l => l[4]?) ht
  simp [limited] at this

theorem link_no_set (x : CStr) : ¬ b!"wg set " <+: limited (b!"ip link set " ++ x) := by
  rintro ⟨t, ht⟩
  have := congrArg (fun l => l[0]?) ht
  simp [limited] at this

/-! ### The conversation -/

/-- What a conversation about these keys is made of. -/
inductive Talk (env : Env) (s : Session) (keys : List CStr) : List Ev → Prop where
  | nil : Talk env s keys []
  | sleep {t} (r : Reply) (rest : Talk env s keys t) : Talk env s keys ((.sleep, r) :: t)
  | failed {t} (k : CStr) (their : PubKey) (r : Reply) (hk : k ∈ keys) (ht : unbase64 env k = some their) (rest : Talk env s keys t) :
      Talk env s keys ((.send (packet s.port s.own their) s.server, r) :: t)
  | unanswered {t} (k : CStr) (their : PubKey) (r a : Reply) (hk : k ∈ keys) (ht : unbase64 env k = some their) (rest : Talk env s keys t) :
      Talk env s keys ((.send (packet s.port s.own their) s.server, r) :: (.recv, a) :: t)
  | answered {t} (k : CStr) (their : PubKey) (r a c : Reply) (hk : k ∈ keys) (ht : unbase64 env k = some their) (hf : a.failed = none)
      (hl : 34 ≤ a.out.length) (rest : Talk env s keys t) :
      Talk env s keys ((.send (packet s.port s.own their) s.server, r) :: (.recv, a) :: (.run (setEndpoint s.iface k (placeIn a.out)), c) :: t)

theorem Talk.append {env : Env} {s : Session} {keys : List CStr} {a b : List Ev} (ha : Talk env s keys a) (hb : Talk env s keys b) :
    Talk env s keys (a ++ b) := by
  induction ha with
  | nil => exact hb
  | sleep r _ ih => exact .sleep r ih
  | failed k their r hk ht _ ih => exact .failed k their r hk ht ih
  | unanswered k their r a hk ht _ ih => exact .unanswered k their r a hk ht ih
  | answered k their r a c hk ht hf hl _ ih => exact .answered k their r a c hk ht hf hl ih

def pending (ps : List Peer) : List CStr := (ps.filter fun p => !p.seen).map (·.key)

theorem sets_append (a b : List Ev) : sets (a ++ b) = sets a ++ sets b := by simp [sets]

theorem placeIn_take (l : List UInt8) : placeIn (l.take 34) = placeIn l := by
  unfold placeIn
  rw [List.drop_take, List.drop_take, List.take_take, List.take_take]
  rfl

/-- A round. -/
theorem round_talk (env : Env) (s : Session) (ps : List Peer) (h : List Ev) :
    ∃ t, (round env s h ps).1 = h ++ t ∧ Talk env s (ps.map (·.key)) t ∧
      ∀ ps' rep, (round env s h ps).2 = .ok (ps', rep) →
        ps'.map (·.key) = ps.map (·.key) ∧ (rep = false → pending ps' = []) ∧
        ∃ ds : List (CStr × Place), sets t = ds.map (fun d => setEndpoint s.iface d.1 d.2) ∧
          (pending ps).Perm (ds.map Prod.fst ++ pending ps') := by
  induction ps generalizing h with
  | nil =>
    refine ⟨[], by simp [round], .nil, ?_⟩
    intro ps' rep he
    simp only [round, Except.ok.injEq, Prod.mk.injEq] at he
    obtain ⟨rfl, rfl⟩ := he
    exact ⟨rfl, fun _ => rfl, [], rfl, by simp [pending]⟩
  | cons p ps ih =>
    have weaken : ∀ {t}, Talk env s (ps.map (·.key)) t → Talk env s ((p :: ps).map (·.key)) t := by
      intro t ht
      induction ht with
      | nil => exact .nil
      | sleep r _ ih => exact .sleep r ih
      | failed k their r hk ht _ ih => exact .failed k their r (by simp only [List.map_cons, List.mem_cons]; exact Or.inr hk) ht ih
      | unanswered k their r a hk ht _ ih => exact .unanswered k their r a (by simp only [List.map_cons, List.mem_cons]; exact Or.inr hk) ht ih
      | answered k their r a c hk ht hf hl _ ih =>
        exact .answered k their r a c (by simp only [List.map_cons, List.mem_cons]; exact Or.inr hk) ht hf hl ih
    unfold round
    by_cases hs : p.seen
    · rw [if_pos hs]
      obtain ⟨t, h1, h2, h3⟩ := ih h
      cases hr : round env s h ps with
      | mk h' res =>
      rw [hr] at h1 h3
      cases res with
      | error e => exact ⟨t, h1, weaken h2, by intro _ _ he; cases he⟩
      | ok v =>
        obtain ⟨ps1, rep1⟩ := v
        refine ⟨t, h1, weaken h2, ?_⟩
        intro ps' rep he
        cases he
        obtain ⟨k1, k2, ds, k3, k4⟩ := h3 ps1 rep1 rfl
        refine ⟨by simp [k1], ?_, ds, k3, ?_⟩
        · intro hrep
          have := k2 hrep
          simpa [pending, hs] using this
        · simpa [pending, hs] using k4
    · rw [if_neg hs]
      have hpend : pending (p :: ps) = p.key :: pending ps := by simp [pending, hs]
      cases hu : unbase64 env p.key with
      | none => exact ⟨[], by simp, .nil, by intro _ _ he; cases he⟩
      | some their =>
        simp only
        generalize hr0 : env.reply h (.send (packet s.port s.own their) s.server) = r0
        cases hf0 : r0.failed with
        | some e =>
          exact ⟨_, rfl, .failed p.key their r0 (by simp) hu .nil, by intro _ _ he; cases he⟩
        | none =>
          simp only
          generalize hr1 : env.reply (h ++ [(Call.send (packet s.port s.own their) s.server, r0)]) .recv = r1
          cases hf1 : r1.failed with
          | some e =>
            refine ⟨[(Call.send (packet s.port s.own their) s.server, r0), (.recv, r1)], by simp, .unanswered p.key their r0 r1 (by simp) hu .nil, ?_⟩
            intro _ _ he; cases he
          | none =>
            simp only
            by_cases hl : (r1.out.take 34).length ≠ 34
            · rw [if_pos hl]
              obtain ⟨t, h1, h2, h3⟩ := ih (h ++ [(Call.send (packet s.port s.own their) s.server, r0)] ++ [(.recv, r1)])
              refine ⟨(Call.send (packet s.port s.own their) s.server, r0) :: (.recv, r1) :: t, ?_,
                .unanswered p.key their r0 r1 (by simp) hu (weaken h2), ?_⟩
              · cases hr : round env s (h ++ [(Call.send (packet s.port s.own their) s.server, r0)] ++ [(.recv, r1)]) ps with
                | mk h' res =>
                rw [hr] at h1
                cases res <;> (simp only at h1 ⊢; rw [h1]; simp)
              · intro ps' rep he
                cases hr : round env s (h ++ [(Call.send (packet s.port s.own their) s.server, r0)] ++ [(.recv, r1)]) ps with
                | mk h' res =>
                rw [hr] at he h3
                cases res with
                | error e => cases he
                | ok v =>
                  obtain ⟨ps1, rep1⟩ := v
                  cases he
                  obtain ⟨k1, k2, ds, k3, k4⟩ := h3 ps1 rep1 rfl
                  refine ⟨by simp [k1], (by intro hc; cases hc), ds, ?_, ?_⟩
                  · rw [← k3]; rfl
                  · rw [hpend]
                    have : pending (p :: ps1) = p.key :: pending ps1 := by simp [pending, hs]
                    rw [this]
                    exact (k4.cons p.key).trans List.perm_middle.symm
            · rw [if_neg hl]
              have hlen : 34 ≤ r1.out.length := by simp at hl; omega
              rw [setCommand_eq s.iface p.key (r1.out.take 34) (by simp; omega), placeIn_take]
              generalize hh1 : h ++ [(Call.send (packet s.port s.own their) s.server, r0)] ++ [(.recv, r1)] = hh
              generalize hr2 : env.reply hh (.run (setEndpoint s.iface p.key (placeIn r1.out))) = r2
              have step : ∀ t, Talk env s ((p :: ps).map (·.key)) t →
                  Talk env s ((p :: ps).map (·.key)) ((Call.send (packet s.port s.own their) s.server, r0) :: (.recv, r1) ::
                    (.run (setEndpoint s.iface p.key (placeIn r1.out)), r2) :: t) := by
                intro t ht
                exact .answered p.key their r0 r1 r2 (by simp) hu hf1 hlen ht
              cases hf2 : r2.failed with
              | some e =>
                refine ⟨_, ?_, step [] .nil, by intro _ _ he; cases he⟩
                simp [← hh1]
              | none =>
                simp only
                obtain ⟨t, h1, h2, h3⟩ := ih (hh ++ [(.run (setEndpoint s.iface p.key (placeIn r1.out)), r2)])
                refine ⟨_, ?_, step t (weaken h2), ?_⟩
                · cases hr : round env s (hh ++ [(.run (setEndpoint s.iface p.key (placeIn r1.out)), r2)]) ps with
                  | mk h' res =>
                  rw [hr] at h1
                  cases res <;> (simp only at h1 ⊢; rw [h1, ← hh1]; simp)
                · intro ps' rep he
                  cases hr : round env s (hh ++ [(.run (setEndpoint s.iface p.key (placeIn r1.out)), r2)]) ps with
                  | mk h' res =>
                  rw [hr] at he h3
                  cases res with
                  | error e => cases he
                  | ok v =>
                    obtain ⟨ps1, rep1⟩ := v
                    cases he
                    obtain ⟨k1, k2, ds, k3, k4⟩ := h3 ps1 rep rfl
                    refine ⟨by simp [k1], ?_, (p.key, placeIn r1.out) :: ds, ?_, ?_⟩
                    · intro hc
                      simpa [pending] using k2 hc
                    · simp only [List.map_cons, ← k3]
                      have := set_prefix s.iface p.key (placeIn r1.out)
                      simp only [sets, List.filterMap_cons, if_pos this]
                    · rw [hpend]
                      have : pending ({ p with seen := true } :: ps1) = pending ps1 := by simp [pending]
                      rw [this, List.map_cons, List.cons_append]
                      exact k4.cons p.key

theorem rounds_talk (env : Env) (s : Session) (n : Nat) (ps : List Peer) (h : List Ev) :
    ∃ t, (rounds env s n h ps).1 = h ++ t ∧ Talk env s (ps.map (·.key)) t := by
  induction n generalizing ps h with
  | zero => exact ⟨[], by simp [rounds], .nil⟩
  | succ n ih =>
    obtain ⟨t, h1, h2, h3⟩ := round_talk env s ps h
    unfold rounds
    cases hr : round env s h ps with
    | mk h' res =>
    rw [hr] at h1 h3
    simp only at h1
    subst h1
    cases res with
    | error e => exact ⟨t, rfl, h2⟩
    | ok v =>
      obtain ⟨ps1, rep⟩ := v
      cases rep with
      | false => exact ⟨t, rfl, h2⟩
      | true =>
        simp only
        obtain ⟨k1, -⟩ := h3 ps1 true rfl
        obtain ⟨t', h4, h5⟩ := ih ps1 (h ++ t ++ [(.sleep, env.reply (h ++ t) .sleep)])
        rw [k1] at h5
        refine ⟨t ++ (.sleep, env.reply (h ++ t) .sleep) :: t', ?_, h2.append (.sleep _ h5)⟩
        rw [h4]; simp

/-- No call fails with `errno` 0. -/
def Errnos (env : Env) : Prop := ∀ h c, (env.reply h c).failed ≠ some 0

theorem round_exit (env : Env) (he : Errnos env) (s : Session) (ps : List Peer) (h : List Ev) : (round env s h ps).2 ≠ .error (.exit 0) := by
  induction ps generalizing h with
  | nil => simp [round]
  | cons p ps ih =>
    unfold round
    by_cases hs : p.seen
    · rw [if_pos hs]
      have := ih h
      cases hr : round env s h ps with
      | mk h' res => rw [hr] at this; cases res with
              | ok v => simp
              | error e => simpa using this
    · rw [if_neg hs]
      cases hu : unbase64 env p.key with
      | none => simp
      | some their =>
        simp only
        have e0 := he h (.send (packet s.port s.own their) s.server)
        generalize hr0 : env.reply h (.send (packet s.port s.own their) s.server) = r0 at e0 ⊢
        cases hf0 : r0.failed with
        | some e => simp only; rw [hf0] at e0; intro hc; cases hc; exact e0 rfl
        | none =>
          simp only
          have e1 := he (h ++ [(Call.send (packet s.port s.own their) s.server, r0)]) .recv
          generalize hr1 : env.reply (h ++ [(Call.send (packet s.port s.own their) s.server, r0)]) .recv = r1 at e1 ⊢
          cases hf1 : r1.failed with
          | some e => simp only; rw [hf1] at e1; intro hc; cases hc; exact e1 rfl
          | none =>
            simp only
            by_cases hl : (r1.out.take 34).length ≠ 34
            · rw [if_pos hl]
              have := ih (h ++ [(Call.send (packet s.port s.own their) s.server, r0)] ++ [(.recv, r1)])
              cases hr : round env s (h ++ [(Call.send (packet s.port s.own their) s.server, r0)] ++ [(.recv, r1)]) ps with
              | mk h' res => rw [hr] at this; cases res with
              | ok v => simp
              | error e => simpa using this
            · rw [if_neg hl]
              generalize hh1 : h ++ [(Call.send (packet s.port s.own their) s.server, r0)] ++ [(.recv, r1)] = hh
              have e2 := he hh (.run (setCommand s.iface p.key (r1.out.take 34)))
              generalize hr2 : env.reply hh (.run (setCommand s.iface p.key (r1.out.take 34))) = r2 at e2 ⊢
              cases hf2 : r2.failed with
              | some e => simp only; rw [hf2] at e2; intro hc; cases hc; exact e2 rfl
              | none =>
                simp only
                have := ih (hh ++ [(.run (setCommand s.iface p.key (r1.out.take 34)), r2)])
                cases hr : round env s (hh ++ [(.run (setCommand s.iface p.key (r1.out.take 34)), r2)]) ps with
                | mk h' res => rw [hr] at this; cases res with
              | ok v => simp
              | error e => simpa using this

/-- The end with 0: every peer was set once. -/
theorem rounds_complete (env : Env) (he : Errnos env) (s : Session) (n : Nat) (ps : List Peer) (h t : List Ev)
    (ht : rounds env s n h ps = (h ++ t, .exit 0)) :
    ∃ ds : List (CStr × Place), sets t = ds.map (fun d => setEndpoint s.iface d.1 d.2) ∧ (pending ps).Perm (ds.map Prod.fst) := by
  induction n generalizing ps h t with
  | zero => simp [rounds] at ht
  | succ n ih =>
    obtain ⟨t1, h1, h2, h3⟩ := round_talk env s ps h
    have hx := round_exit env he s ps h
    unfold rounds at ht
    cases hr : round env s h ps with
    | mk h' res =>
    rw [hr] at h1 h3 ht hx
    simp only at h1
    subst h1
    cases res with
    | error e =>
      simp only [Prod.mk.injEq] at ht
      exact absurd (by rw [ht.2]) hx
    | ok v =>
      obtain ⟨ps1, rep⟩ := v
      obtain ⟨-, k2, ds, k3, k4⟩ := h3 ps1 rep rfl
      cases rep with
      | false =>
        simp only [Prod.mk.injEq, List.append_cancel_left_eq, and_true] at ht
        subst ht
        refine ⟨ds, k3, ?_⟩
        rw [k2 rfl, List.append_nil] at k4
        exact k4
      | true =>
        simp only at ht
        obtain ⟨t2, h4, -⟩ := rounds_talk env s n ps1 (h ++ t1 ++ [(.sleep, env.reply (h ++ t1) .sleep)])
        have e : h ++ t = h ++ t1 ++ [(.sleep, env.reply (h ++ t1) .sleep)] ++ t2 := by rw [← h4, ht]
        obtain ⟨ds2, k5, k6⟩ := ih ps1 (h ++ t1 ++ [(.sleep, env.reply (h ++ t1) .sleep)]) t2 (by rw [ht, e])
        have et : t = t1 ++ ([(.sleep, env.reply (h ++ t1) .sleep)] ++ t2) := by
          simpa only [List.append_assoc, List.append_cancel_left_eq] using e
        refine ⟨ds ++ ds2, ?_, ?_⟩
        · rw [et, sets_append, sets_append, k3, k5]
          simp [sets]
        · rw [List.map_append]
          exact k4.trans (k6.append_left _)

end WG.PunchClient
