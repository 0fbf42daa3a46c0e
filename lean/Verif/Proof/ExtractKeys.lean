import Verif.Spec.ExtractKeys
import Verif.Proof.Show
import Verif.Proof.Values
import Verif.Proof.AndroidDel
import Verif.Proof.PunchClient
import Verif.Proof.Openbsd
/-! contrib/extract-keys. -/
namespace WG.ExtractKeys
open WG.Spec WG.Spec.Sessions

theorem lowFirst_length (n x : Nat) : (lowFirst n x).length = n := by induction n generalizing x <;> simp_all [lowFirst]

theorem leNat_lowFirst (n x : Nat) (h : x < 256 ^ n) : leNat (lowFirst n x) = x := by
  induction n generalizing x with
  | zero => simp at h; simp [lowFirst, leNat, h]
  | succ n ih =>
    rw [lowFirst, leNat, ih _ (by rw [Nat.pow_succ] at h; omega)]
    rw [UInt8.toNat_ofNat']
    omega

theorem lowFirst_leBytes (n x : Nat) : lowFirst n x = Obsd.leBytes n x := by
  induction n generalizing x with
  | zero => rfl
  | succ n ih =>
    rw [lowFirst, Obsd.leBytes, ih]
    congr 1
    apply UInt8.toNat_inj.1
    simp

theorem lowFirst_leNat (l : List UInt8) : lowFirst l.length (leNat l) = l := by
  induction l with
  | nil => rfl
  | cons b t ih =>
    rw [List.length_cons, lowFirst, leNat]
    have hb := b.toNat_lt
    have e1 : (b.toNat + 256 * leNat t) % 256 = b.toNat := by omega
    have e2 : (b.toNat + 256 * leNat t) / 256 = leNat t := by omega
    rw [e1, e2, ih]
    simp

theorem mapM_some (l : List Nat) (f : Nat → Option UInt8) (g : Nat → UInt8) (h : ∀ i ∈ l, f i = some (g i)) : l.mapM f = some (l.map g) := by
  induction l with
  | nil => rfl
  | cons a l ih =>
    rw [List.mapM_cons, h a (by simp), ih fun i hi => h i (by simp [hi])]
    rfl

theorem readKmem_stored {env addr b} (h : Stored env addr b) : readKmem env b.length addr = .ok b := by
  unfold readKmem
  rw [mapM_some (List.range b.length) _ (fun i => b.getD i 0)]
  · simp only
    congr 1
    apply List.ext_getElem
    · simp
    · intro i h1 h2
      simp at h1
      simp [h2]
  · intro i hi
    simp at hi
    rw [h i hi]
    simp [hi]

theorem readKmem_stored' {env addr b} (n : Nat) (h : Stored env addr b) (hn : b.length = n) : readKmem env n addr = .ok b := by
  subst hn; exact readKmem_stored h

theorem readLong_pointer {env addr v} (h : Pointer env addr v) : readLong env addr = .ok v := by
  unfold readLong
  have hv : leNat (lowFirst 8 v.toNat) = v.toNat := leNat_lowFirst 8 _ (by have := v.toNat_lt; simpa using this)
  unfold Pointer at h
  rw [readKmem_stored' 8 h (by split <;> simp [lowFirst_length])]
  simp only [Except.map, hostNat]
  cases env.big <;> simp [hv]

theorem readIndex {env addr} {v : UInt32} (h : Stored env addr (lowFirst 4 v.toNat)) :
    ∃ n, readInt env addr = .ok n ∧ le32toh env n = v.toNat := by
  have hv : leNat (lowFirst 4 v.toNat) = v.toNat := leNat_lowFirst 4 _ (by have := v.toNat_lt; simpa using this)
  unfold readInt
  rw [readKmem_stored' 4 h (lowFirst_length 4 _)]
  refine ⟨_, rfl, ?_⟩
  unfold le32toh hostNat
  cases env.big
  · simpa using hv
  · simp only [if_true]
    rw [← lowFirst_leBytes]
    have := lowFirst_leNat (lowFirst 4 v.toNat).reverse
    rw [List.length_reverse, lowFirst_length] at this
    rw [this, List.reverse_reverse, hv]

theorem hexDigitLower_alphabet : ∀ n < 16, hexDigitLower n = hexAlphabet.getD n 0 := by decide

theorem hexDigits_zero (k : Nat) : hexDigits k 0 = List.replicate k c!"0" := by
  induction k with
  | zero => rfl
  | succ k ih => rw [hexDigits, Nat.zero_div, ih, List.replicate_succ']; rfl

theorem showHexAux_digits (fuel : Nat) : ∀ (n k : Nat), n < fuel → n < 16 ^ k → 0 < k →
    List.replicate (k - (showHexAux fuel n).length) c!"0" ++ showHexAux fuel n = hexDigits k n := by
  induction fuel with
  | zero => intro n k h; omega
  | succ fuel ih =>
    intro n k h hk h0
    obtain ⟨k, rfl⟩ : ∃ j, k = j + 1 := ⟨k - 1, by omega⟩
    rw [showHexAux]
    by_cases hn : n < 16
    · rw [if_pos hn, hexDigits, show n / 16 = 0 by omega, hexDigits_zero, Nat.mod_eq_of_lt hn, hexDigitLower_alphabet n hn]
      simp
    · rw [if_neg hn, hexDigits, ← hexDigitLower_alphabet _ (Nat.mod_lt _ (by decide))]
      have hk' : n / 16 < 16 ^ k := by rw [Nat.pow_succ] at hk; omega
      have hpos : 0 < k := by
        rcases Nat.eq_zero_or_pos k with rfl | h
        · simp at hk; omega
        · exact h
      have := ih (n / 16) k (by omega) hk' hpos
      rw [← this]
      simp [Nat.add_sub_add_right]

theorem hex08_digits (v : UInt32) : hex08 v.toNat = hexDigits 8 v.toNat :=
  showHexAux_digits _ _ 8 (by omega) (by have := v.toNat_lt; simpa using this) (by decide)

theorem printKey_none (env : Env) : printKey env 0 = .ok [] := rfl

theorem printKey_session {env p s} (h : SessionAt env p s) : printKey env p = .ok s.text := by
  obtain ⟨a, ha1, ha2⟩ := readIndex h.localIndex
  obtain ⟨b, hb1, hb2⟩ := readIndex h.remoteIndex
  have h1 := readKmem_stored' 32 h.sending (by simp)
  have h2 := readKmem_stored' 32 h.receiving (by simp)
  unfold printKey
  rw [if_neg h.ne, ha1, hb1, h1, h2]
  simp only [bind, Except.bind, pure, Except.pure, ha2, hb2, hex08_digits]
  simp [Session.text]

/-- What is printed for a pointer to a session, or a null pointer. -/
theorem printKey_slot {env a o} (h : SlotAt env a o) : (do printKey env (← readLong env a)) = .ok ((o.map Session.text).getD []) := by
  cases o with
  | none =>
    have h : Pointer env a 0 := h
    rw [readLong_pointer h]
    rfl
  | some s =>
    obtain ⟨p, h1, h2⟩ := h
    rw [readLong_pointer h1]
    exact printKey_session h2

theorem printKeys_peer {env e p} (h : PeerAt env e p) (out : CStr) :
    printKeys env [e + env.lay.peersPeer + env.lay.peerCurrent, e + env.lay.peersPeer + env.lay.peerPrevious, e + env.lay.peersPeer + env.lay.peerNext] out =
      (out ++ (p.sessions.map Session.text).flatten, .ok ()) := by
  rw [printKeys, printKey_slot h.current]
  simp only
  rw [printKeys, printKey_slot h.previous]
  simp only
  rw [printKeys, printKey_slot h.next]
  simp only [printKeys]
  congr 1
  unfold Peer.sessions
  cases p.current <;> cases p.previous <;> cases p.next <;> simp

theorem walk_ring {env head a l} (h : RingFrom env head a l) : ∀ (fuel : Nat) (out : CStr), l.length < fuel → ∃ first, readLong env a = .ok first ∧
    walkPeers env head fuel first out = (out ++ ((l.flatMap Peer.sessions).map Session.text).flatten, .ok ()) := by
  induction h with
  | nil h =>
    intro fuel out hf
    obtain ⟨fuel, rfl⟩ : ∃ j, fuel = j + 1 := ⟨fuel - 1, by simp at hf; omega⟩
    exact ⟨head, readLong_pointer h, by simp [walkPeers]⟩
  | cons hp hne hpeer hr ih =>
    rename_i a e p l
    intro fuel out hf
    obtain ⟨fuel, rfl⟩ : ∃ j, fuel = j + 1 := ⟨fuel - 1, by simp at hf; omega⟩
    refine ⟨e, readLong_pointer hp, ?_⟩
    obtain ⟨first, h1, h2⟩ := ih fuel (out ++ (p.sessions.map Session.text).flatten) (by simp at hf; omega)
    rw [walkPeers, if_neg hne]
    simp only
    rw [printKeys_peer hpeer]
    simp only
    rw [h1]
    simp only
    rw [h2]
    simp

/-! ### /proc/net/udp -/

theorem fgets_line255 (l rest : List UInt8) (h1 : l.length < 255) (hl : ∀ c ∈ l, c ≠ 10) : PunchClient.fgets 255 (l ++ [10] ++ rest) = (l ++ [10], rest) := by
  unfold PunchClient.fgets
  have e : (l ++ [10] ++ rest).take 255 = l ++ 10 :: rest.take (254 - l.length) := by
    rw [List.append_assoc, List.take_append, List.take_of_length_le (by omega), List.singleton_append,
      show 255 - l.length = (254 - l.length) + 1 by omega, List.take_succ_cons]
  have hi : (l ++ 10 :: rest.take (254 - l.length)).findIdx? (fun c => decide (c = 10)) = some l.length := by
    rw [List.findIdx?_append]
    have : l.findIdx? (fun c => decide (c = 10)) = none := by
      rw [List.findIdx?_eq_none_iff]; intro c hc; simpa using hl c hc
    rw [this]
    simp [List.findIdx?_cons]
  rw [e, hi]
  simp only
  rw [List.take_left' (by simp), List.drop_left' (by simp)]

theorem cstr_self (l : List UInt8) (h : ∀ c ∈ l, c ≠ 0) : PunchClient.cstr l = l :=
  List.takeWhile_eq_self_iff.2 fun c hc => by simpa using h c hc

theorem cstr_name (name rest : List UInt8) (h : ∀ c ∈ name, c ≠ 0) : PunchClient.cstr (name ++ 0 :: rest) = name := by
  unfold PunchClient.cstr
  rw [List.takeWhile_append_of_pos (by intro c hc; simpa using h c hc)]
  simp

theorem hexDigit_clean : ∀ c : UInt8, isHexDigit c = true → c ≠ 0 ∧ c ≠ 10 ∧ c ≠ 32 ∧ isspaceLibc c = false ∧ c ≠ 45 ∧ c ≠ 43 ∧ c ≠ 120 ∧ c ≠ 88 := by
  apply forall_u8; decide +kernel

theorem digit_clean : ∀ c : UInt8, isDigit c = true → c ≠ 0 ∧ c ≠ 10 ∧ c ≠ 32 := by
  apply forall_u8; decide +kernel

/-- The part of a line before the line feed. -/
def front (s : SockLine) : CStr := s.before ++ b!" " ++ s.addrText ++ b!" " ++ s.drops ++ List.replicate s.pad 32

theorem text_front (s : SockLine) : s.text = front s ++ [10] := rfl

theorem front_clean {s addr} (h : SockLine.Proper s addr) : ∀ c ∈ front s, c ≠ 0 ∧ c ≠ 10 := by
  intro c hc
  simp only [front, List.mem_append, List.mem_replicate, List.mem_singleton] at hc
  rcases hc with ((((hc | rfl) | hc) | rfl) | hc) | ⟨-, rfl⟩
  · exact h.before c hc
  · decide
  · have := hexDigit_clean c (h.addr.2.1 c hc); exact ⟨this.1, this.2.1⟩
  · decide
  · have := digit_clean c (h.drops.2 c hc); exact ⟨this.1, this.2.1⟩
  · decide

theorem dropWhile_blanks (n : Nat) (l : CStr) (hl : ∀ c, l.head? = some c → c ≠ 32) : (List.replicate n 32 ++ l).dropWhile (fun c => decide (c = 32)) = l := by
  rw [List.dropWhile_append_of_pos (by intro c hc; rw [(List.mem_replicate.1 hc).2]; rfl)]
  cases l with
  | nil => rfl
  | cons c l => rw [List.dropWhile_cons_of_neg]; simpa using hl c rfl

theorem dropWhile_field (l r : CStr) (hl : ∀ c ∈ l, c ≠ 32) : (l ++ 32 :: r).dropWhile (fun c => decide (c ≠ 32)) = 32 :: r := by
  rw [List.dropWhile_append_of_pos (by intro c hc; simpa using hl c hc), List.dropWhile_cons_of_neg]
  simp

/-- The scan from the end of the line finds the last field but one. -/
theorem addressField_line {s addr} (h : SockLine.Proper s addr) : addressField s.text = some (s.addrText ++ b!" " ++ s.drops ++ List.replicate s.pad 32 ++ [10]) := by
  have hr : s.text.reverse.tail = List.replicate s.pad 32 ++ (s.drops.reverse ++ 32 :: (s.addrText.reverse ++ 32 :: s.before.reverse)) := by
    simp [SockLine.text]
  have ha : ∀ c ∈ s.addrText, c ≠ 32 := fun c hc => (hexDigit_clean c (h.addr.2.1 c hc)).2.2.1
  have hd : ∀ c ∈ s.drops, c ≠ 32 := fun c hc => (digit_clean c (h.drops.2 c hc)).2.2
  obtain ⟨d, ds, hdr⟩ := List.exists_cons_of_ne_nil (l := s.drops.reverse) (by simpa using h.drops.1)
  obtain ⟨a, as, har⟩ := List.exists_cons_of_ne_nil (l := s.addrText.reverse) (by simpa using h.addr.1)
  have hd' : ∀ c ∈ d :: ds, c ≠ 32 := fun c hc => hd c (by rw [← hdr] at hc; simpa using hc)
  have ha' : ∀ c ∈ a :: as, c ≠ 32 := fun c hc => ha c (by rw [← har] at hc; simpa using hc)
  unfold addressField
  rw [hr, dropWhile_blanks _ _ (by intro c hc; rw [hdr] at hc; simp at hc; exact hd' c (by simp [hc])), hdr]
  simp only [List.cons_append]
  rw [dropWhile_field _ _ (fun c hc => hd' c (by simp [hc])), har]
  simp only [List.cons_append]
  rw [dropWhile_field _ _ (fun c hc => ha' c (by simp [hc]))]
  rw [if_neg (by simp)]
  congr 1
  have e : (32 :: s.before.reverse).length = (s.before ++ b!" ").length := by simp
  have e2 : s.text = (s.before ++ b!" ") ++ (s.addrText ++ b!" " ++ s.drops ++ List.replicate s.pad 32 ++ [10]) := by simp [SockLine.text]
  rw [e, e2, List.drop_left' rfl]

theorem strtoul_addr {t : CStr} {addr : UInt64} (h : IsHexNum t addr.toNat) (rest : CStr) : (strtoul (2 ^ 64 - 1) 16 (t ++ 32 :: rest)).1 = addr.toNat := by
  obtain ⟨h1, h2, h3⟩ := h
  obtain ⟨d, ds, rfl⟩ := List.exists_cons_of_ne_nil h1
  obtain ⟨-, -, -, g1, g2, g3, g4, g5⟩ := hexDigit_clean d (h2 d (by simp))
  simp only [List.cons_append]
  have e1 : (d :: (ds ++ 32 :: rest)).dropWhile isspaceLibc = d :: (ds ++ 32 :: rest) := by rw [List.dropWhile_cons_of_neg (by simp [g1])]
  have e2 : strtoulSign (d :: (ds ++ 32 :: rest)) = (false, d :: (ds ++ 32 :: rest)) := by
    unfold strtoulSign
    split
    · rename_i h; injection h with h; exact absurd h g2
    · rename_i h; injection h with h; exact absurd h g3
    · rfl
  have e3 : strtoulPrefix 16 (d :: (ds ++ 32 :: rest)) = d :: (ds ++ 32 :: rest) := by
    unfold strtoulPrefix
    split
    · rename_i x d' t' h
      injection h with h h'
      rw [if_neg]
      cases ds with
      | nil => simp only [List.nil_append] at h'; injection h' with h' _; subst h'; simp
      | cons y ys =>
        simp only [List.cons_append] at h'
        injection h' with h' _
        subst h'
        obtain ⟨-, -, -, -, -, -, k4, k5⟩ := hexDigit_clean y (h2 y (by simp))
        simp [k4, k5]
    · rfl
  have e4 : (d :: (ds ++ 32 :: rest)).takeWhile (isDigitOf 16) = d :: ds := by
    rw [← List.cons_append, List.takeWhile_append_of_pos (by intro c hc; rw [isDigitOf16]; exact h2 c hc),
      List.takeWhile_cons_of_neg (by decide)]
    simp
  simp only [strtoul, e1, e2, e3, e4]
  rw [if_neg (by simp)]
  have e5 : digitsVal 16 (d :: ds) = addr.toNat := by rw [h3, digitsVal16 _ h2]
  have := addr.toNat_lt
  rw [e5, if_neg (by omega)]
  simp

/-- The loop over the lines. -/
theorem findLoop_lines {env : Env} {iface : CStr} (socks : List (SockLine × UInt64 × Option (UInt64 × CStr)))
    (hs : ∀ s ∈ socks, s.1.Proper s.2.1 ∧ SockIs env s.2.1 s.2.2) (fuel : Nat) (hf : socks.length ≤ fuel) :
    findLoop env iface fuel (socks.flatMap fun s => s.1.text) =
      .ok (((socks.filterMap (·.2.2)).find? fun d => d.2 = iface).elim 0 (·.1)) := by
  induction socks generalizing fuel with
  | nil => cases fuel <;> simp [findLoop]
  | cons s socks ih =>
    obtain ⟨fuel, rfl⟩ : ∃ j, fuel = j + 1 := ⟨fuel - 1, by simp at hf; omega⟩
    have ih := ih (fun x hx => hs x (by simp [hx])) fuel (by simpa using hf)
    obtain ⟨⟨line, addr, dev⟩, rfl⟩ : ∃ x, x = s := ⟨s, rfl⟩
    obtain ⟨h1, h2⟩ := hs _ List.mem_cons_self
    simp only at h1 h2
    have hne : line.text ++ (socks.flatMap fun s => s.1.text) ≠ [] := by rw [text_front]; simp
    have hlen : (front line).length < 255 := by have := h1.length; rw [text_front] at this; simp at this; omega
    have hg : PunchClient.fgets 255 (line.text ++ (socks.flatMap fun s => s.1.text)) = (line.text, socks.flatMap fun s => s.1.text) := by
      rw [text_front, fgets_line255 _ _ hlen fun c hc => (front_clean h1 c hc).2]
    have hc : PunchClient.cstr line.text = line.text := by
      apply cstr_self
      intro c hc
      rw [text_front] at hc
      rcases List.mem_append.1 hc with hc | hc
      · exact (front_clean h1 c hc).1
      · simp at hc; subst hc; decide
    rw [List.flatMap_cons, findLoop, if_neg hne]
    simp only
    rw [hg]
    simp only
    rw [hc, addressField_line h1]
    simp only
    have hst : (strtoul (2 ^ 64 - 1) 16 (line.addrText ++ b!" " ++ line.drops ++ List.replicate line.pad 32 ++ [10])).1 = addr.toNat := by
      have := strtoul_addr h1.addr (line.drops ++ List.replicate line.pad 32 ++ [10])
      rw [← this]
      simp
    rw [hst, UInt64.ofNat_toNat]
    cases h2 with
    | hidden h0 => rw [if_pos h0, ih]; rfl
    | other h0 hp =>
      rw [if_neg h0, readLong_pointer hp]
      simp only [bind, Except.bind, if_true]
      rw [ih]; rfl
    | device h0 hp hd hl hn hst =>
      rename_i d name rest
      rw [if_neg h0, readLong_pointer hp]
      simp only [bind, Except.bind]
      rw [if_neg hd, readKmem_stored' _ hst hl]
      simp only
      rw [cstr_name name rest hn]
      by_cases hi : name = iface
      · rw [if_pos hi]
        simp [hi]
      · rw [if_neg hi, ih]
        simp [hi]

end WG.ExtractKeys
