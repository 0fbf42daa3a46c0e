import Verif.Proof.PunchClient
import Verif.Proof.AndroidDns
import Verif.Proof.Reresolve
/-! The client of contrib/nat-hole-punching, from its start. -/
namespace WG.PunchClient
open WG.Spec WG.Spec.PunchClient WG.Spec.Punch WG.Punch

theorem limited_short (x : CStr) (h : x.length ≤ 2046) : limited x = x := List.take_of_length_le h

theorem fgets_one (n : Nat) (t : List UInt8) (ht : ∀ c ∈ t, c ≠ 10) (hn : t.length < n) : (fgets n (t ++ [10])).1 = t ++ [10] := by
  unfold fgets
  have e : (t ++ [10]).take n = t ++ [10] := List.take_of_length_le (by simp; omega)
  rw [e]
  have : (t ++ [10]).findIdx? (fun c => decide (c = 10)) = some t.length := by
    rw [List.findIdx?_append]
    have : t.findIdx? (fun c => decide (c = 10)) = none := by
      rw [List.findIdx?_eq_none_iff]; intro c hc; simpa using ht c hc
    rw [this]
    simp [List.findIdx?_cons]
  rw [this]
  exact List.take_of_length_le (by simp)

theorem firstLine_one (t : List UInt8) (hc : ∀ c ∈ t, c ≠ 10 ∧ c ≠ 0) (hl : t.length < 2047) :
    firstLine (t ++ [10]) = some t := by
  unfold firstLine
  rw [if_neg (by simp), fgets_one 2047 t (fun c h => (hc c h).1) hl]
  simp only
  rw [cstr_clean]
  · rw [if_neg (by simp)]
    simp [chomp]
  · intro c hcm
    rcases List.mem_append.1 hcm with h | h
    · exact (hc c h).2
    · simp at h; subst h; decide

theorem decimal_clean (n : Nat) : ∀ c ∈ decimal n, c ≠ 10 ∧ c ≠ 0 := by
  intro c hc
  obtain ⟨-, h2, -⟩ := decimal_isDecimal n
  have := h2 c hc
  constructor <;> (rintro rfl; revert this; decide)

theorem decimal_short (n : Nat) (h : n < 65536) : (decimal n).length ≤ 5 := by
  unfold decimal ascii
  rw [List.length_map]
  have := (Nat.length_toDigits_le_iff (b := 10) (n := n) (k := 5) (by decide) (by decide)).2 (by omega)
  exact this

theorem unbase64_key (env : Env) (hd : ∀ k : WG.Key, env.pton (rfc4648 k.toList) = some k.toList) (k : WG.Key) :
    unbase64 env (rfc4648 k.toList) = some k.toList := by
  unfold unbase64
  rw [hd k]
  simp

/-- Not a request, not a change of a peer. -/
def Quiet (e : Ev) : Prop := (∀ p d, e.1 ≠ .send p d) ∧ sets [e] = []

theorem sets_quiet (t : List Ev) (h : ∀ e ∈ t, Quiet e) : sets t = [] := by
  induction t with
  | nil => rfl
  | cons e t ih =>
    rw [show e :: t = [e] ++ t from rfl, sets_append, (h e (by simp)).2, ih fun x hx => h x (by simp [hx])]
    rfl

theorem quiet_show (x : CStr) (r : Reply) : Quiet (.run (b!"wg show " ++ x), r) := by
  refine ⟨by intro p d; simp, ?_⟩
  have h : ¬ b!"wg set " <+: b!"wg show " ++ x := by
    rintro ⟨t, ht⟩
    have := congrArg (fun l => l[4]?) ht
    simp at this
  simp only [sets, List.filterMap_cons, if_neg h, List.filterMap_nil]

theorem quiet_link (x : CStr) (r : Reply) : Quiet (.run (b!"ip link set " ++ x), r) := by
  refine ⟨by intro p d; simp, ?_⟩
  have h : ¬ b!"wg set " <+: b!"ip link set " ++ x := by
    rintro ⟨t, ht⟩
    have := congrArg (fun l => l[0]?) ht
    simp at this
  simp only [sets, List.filterMap_cons, if_neg h, List.filterMap_nil]

theorem bigEndian_eq (l : List UInt8) : be16val l = bigEndian l := rfl

/-- The start: it fails quietly, or the conversation begins. -/
theorem main_start (env : Env) (n : Nat) (server iface : CStr) (more : List CStr) (own : WG.Key) (port : Nat) (peers : List WG.Key)
    (hd : Interface env iface own port peers) :
    ((∀ e ∈ (main env n (server :: iface :: more)).1, Quiet e) ∧ (Errnos env → (main env n (server :: iface :: more)).2 ≠ .exit 0) ∧
      (env.uid = 0 → (∀ h c, (env.reply h c).failed = none) → False)) ∨
    ∃ pre, (∀ e ∈ pre, Quiet e) ∧ (.filter (program port (bigEndian (env.reply [] (.lookup server)).out)), env.reply pre.dropLast
        (.filter (program port (bigEndian (env.reply [] (.lookup server)).out)))) ∈ pre ∧
      main env n (server :: iface :: more) =
        rounds env ⟨iface, (env.reply [] (.lookup server)).out, port, own.toList⟩ n pre (peers.map fun k => ⟨rfc4648 k.toList, false⟩) := by
  have hname := hd.name
  have hlim1 : limited (b!"wg show " ++ iface ++ b!" peers") = b!"wg show " ++ (iface ++ b!" peers") := by
    rw [limited_short _ (by simp; omega), List.append_assoc]
  have hlim2 : limited (b!"wg show " ++ iface ++ b!" public-key") = b!"wg show " ++ (iface ++ b!" public-key") := by
    rw [limited_short _ (by simp; omega), List.append_assoc]
  have hlim3 : limited (b!"wg show " ++ iface ++ b!" listen-port") = b!"wg show " ++ (iface ++ b!" listen-port") := by
    rw [limited_short _ (by simp; omega), List.append_assoc]
  have hlim4 : limited (b!"ip link set " ++ iface ++ b!" up") = b!"ip link set " ++ (iface ++ b!" up") := by
    rw [limited_short _ (by simp; omega), List.append_assoc]
  have hpeers : ∀ h, env.reply h (.run (b!"wg show " ++ (iface ++ b!" peers"))) =
      { out := ((peers.map fun k => rfc4648 k.toList).map (· ++ [10])).flatten } := by
    intro h
    rw [← List.append_assoc, hd.peersAre h, List.map_map]
    rfl
  have hkey : ∀ h, env.reply h (.run (b!"wg show " ++ (iface ++ b!" public-key"))) = { out := rfc4648 own.toList ++ [10] } := by
    intro h; rw [← List.append_assoc]; exact hd.keyIs h
  have hport : ∀ h, env.reply h (.run (b!"wg show " ++ (iface ++ b!" listen-port"))) = { out := decimal port ++ [10] } := by
    intro h; rw [← List.append_assoc]; exact hd.portIs h
  have hfew := hd.few
  have hread : ∀ f, ((peers.map fun k => rfc4648 k.toList).map (· ++ [10])).flatten.length ≤ f →
      readPeers f 0 ((peers.map fun k => rfc4648 k.toList).map (· ++ [10])).flatten = some (peers.map fun k => rfc4648 k.toList) := by
    intro f hf
    rw [readPeers_lines _ _ f 0 hf, if_pos (Or.inl (by simp [maxPeers]; omega))]
    intro k hk
    obtain ⟨k, -, rfl⟩ := List.mem_map.1 hk
    exact ⟨WG.Reresolve.key_length k, fun c hc => ⟨(rfc4648_chars _ c hc).2.2.1, (rfc4648_chars _ c hc).1⟩⟩
  have hfl : firstLine (rfc4648 own.toList ++ [10]) = some (rfc4648 own.toList) :=
    firstLine_one _ (fun c hc => ⟨(rfc4648_chars _ c hc).2.2.1, (rfc4648_chars _ c hc).1⟩) (by rw [WG.Reresolve.key_length]; omega)
  have hfp : firstLine (decimal port ++ [10]) = some (decimal port) :=
    firstLine_one _ (decimal_clean port) (by have := decimal_short port hd.range; omega)
  have hrange := hd.range
  have hatoi : (WG.Android.atoi (decimal port) % 65536).toNat = port := by
    rw [WG.Android.atoi_int (decimal_isDecimal port) (by omega)]
    omega
  unfold main
  by_cases hu : env.uid ≠ 0
  · left
    simp only [if_pos hu]
    exact ⟨by simp, fun _ => by simp, fun h => absurd h hu⟩
  · simp only [if_neg hu]
    generalize hr0 : env.reply [] (.lookup server) = r0
    have q0 : Quiet (Call.lookup server, r0) := ⟨by intro p d; simp, rfl⟩
    cases hf0 : r0.failed with
    | some e =>
      left
      refine ⟨by simpa using q0, ?_, fun _ h => ?_⟩
      · intro he hc; have := he [] (.lookup server); rw [hr0, hf0] at this; simp at hc; exact this (by rw [hc])
      · have := h [] (.lookup server); rw [hr0, hf0] at this; cases this
    | none =>
      simp only [hlim1, hpeers, hread _ (Nat.le_refl _)]
      unfold identify
      simp only [hlim2, hlim4, hkey, hfl, unbase64_key env hd.decodes]
      generalize hh0 : [(Call.lookup server, r0)] ++ [(Call.run (b!"wg show " ++ (iface ++ b!" peers")),
        ({ out := ((peers.map fun k => rfc4648 k.toList).map (· ++ [10])).flatten } : Reply))] = h0
      have q1 : ∀ e ∈ h0, Quiet e := by
        rw [← hh0]
        intro e he
        simp only [List.mem_append, List.mem_singleton] at he
        rcases he with rfl | rfl
        · exact q0
        · exact quiet_show _ _
      generalize hr1 : env.reply h0 (.run (b!"ip link set " ++ (iface ++ b!" up"))) = r1
      have q2 : ∀ e ∈ h0 ++ [(Call.run (b!"ip link set " ++ (iface ++ b!" up")), r1)], Quiet e := by
        intro e he
        simp only [List.mem_append, List.mem_singleton] at he
        rcases he with he | rfl
        · exact q1 e he
        · exact quiet_link _ _
      cases hf1 : r1.failed with
      | some e =>
        left
        refine ⟨q2, ?_, fun _ h => ?_⟩
        · intro he hc; have := he h0 (.run (b!"ip link set " ++ (iface ++ b!" up"))); rw [hr1, hf1] at this; simp at hc; exact this (by rw [hc])
        · have := h h0 (.run (b!"ip link set " ++ (iface ++ b!" up"))); rw [hr1, hf1] at this; cases this
      | none =>
        simp only
        unfold connect
        simp only [hlim3, hport, hfp, hatoi, bigEndian_eq]
        generalize hh3 : h0 ++ [(Call.run (b!"ip link set " ++ (iface ++ b!" up")), r1)] ++
          [(Call.run (b!"wg show " ++ (iface ++ b!" public-key")), ({ out := rfc4648 own.toList ++ [10] } : Reply))] ++
          [(Call.run (b!"wg show " ++ (iface ++ b!" listen-port")), ({ out := decimal port ++ [10] } : Reply))] = h3
        have q3 : ∀ e ∈ h3, Quiet e := by
          rw [← hh3]
          intro e he
          rcases List.mem_append.1 he with he | he
          · rcases List.mem_append.1 he with he | he
            · exact q2 e he
            · rw [List.mem_singleton.1 he]; exact quiet_show _ _
          · rw [List.mem_singleton.1 he]; exact quiet_show _ _
        generalize hr4 : env.reply h3 .socket = r4
        have q4 : ∀ e ∈ h3 ++ [(Call.socket, r4)], Quiet e := by
          intro e he
          rcases List.mem_append.1 he with he | he
          · exact q3 e he
          · rw [List.mem_singleton.1 he]; exact ⟨by intro p d; simp, rfl⟩
        cases hf4 : r4.failed with
        | some e =>
          left
          refine ⟨q4, ?_, fun _ h => ?_⟩
          · intro he hc; have := he h3 .socket; rw [hr4, hf4] at this; simp at hc; exact this (by rw [hc])
          · have := h h3 .socket; rw [hr4, hf4] at this; cases this
        | none =>
          simp only
          generalize hh4 : h3 ++ [(Call.socket, r4)] = h4 at q4 ⊢
          generalize hr5 : env.reply h4 (.filter (program port (bigEndian r0.out))) = r5
          have q5 : ∀ e ∈ h4 ++ [(Call.filter (program port (bigEndian r0.out)), r5)], Quiet e := by
            intro e he
            rcases List.mem_append.1 he with he | he
            · exact q4 e he
            · rw [List.mem_singleton.1 he]; exact ⟨by intro p d; simp, rfl⟩
          cases hf5 : r5.failed with
          | some e =>
            left
            refine ⟨q5, ?_, fun _ h => ?_⟩
            · intro he hc; have := he h4 (.filter (program port (bigEndian r0.out))); rw [hr5, hf5] at this; simp at hc; exact this (by rw [hc])
            · have := h h4 (.filter (program port (bigEndian r0.out))); rw [hr5, hf5] at this; cases this
          | none =>
            right
            refine ⟨h4 ++ [(Call.filter (program port (bigEndian r0.out)), r5)], q5, ?_, ?_⟩
            · rw [List.dropLast_concat, hr5]; simp
            · simp only [List.map_map]
              rfl

end WG.PunchClient
