import Verif.Spec.Demo
import Verif.Proof.Show
import Verif.Proof.Dump
import Mathlib.Data.List.Perm.Subperm
import Mathlib.Data.List.Nodup
/-! The demo server of contrib/ncat-client-server. -/
namespace WG.Demo
open WG.Spec WG.Spec.Demo

/-! ### Texts -/

theorem infix_sep {n a b : List UInt8} {x : UInt8} (hx : x ∉ n) (_hn : n ≠ []) : n <:+: a ++ x :: b ↔ n <:+: a ∨ n <:+: b := by
  constructor
  · rintro ⟨u, v, h⟩
    rcases List.append_eq_append_iff.1 h with ⟨c, h1, h2⟩ | ⟨c, h1, h2⟩
    · left; exact ⟨u, c, h1.symm⟩
    · cases c with
      | nil => left; exact ⟨u, [], by simpa using h1⟩
      | cons y c =>
        simp only [List.cons_append, List.cons.injEq] at h2
        obtain ⟨rfl, h2⟩ := h2
        rcases List.append_eq_append_iff.1 h1 with ⟨e, h3, h4⟩ | ⟨e, h3, h4⟩
        · exact absurd (by rw [h4]; simp) hx
        · cases e with
          | nil =>
            rw [List.nil_append] at h4
            exact absurd (by rw [← h4]; simp) hx
          | cons z e =>
            simp only [List.cons_append, List.cons.injEq] at h4
            right
            exact ⟨e, v, by rw [h2, h4.2]⟩
  · rintro (⟨u, v, rfl⟩ | ⟨u, v, rfl⟩)
    · exact ⟨u, v ++ x :: b, by simp⟩
    · exact ⟨a ++ x :: u, v, by simp⟩

def needle (i : Nat) : CStr := ipText i ++ b!"/32"

theorem decimal_digits (i : Nat) : ∀ c ∈ decimal i, 48 ≤ c ∧ c ≤ 57 := by
  intro c hc
  obtain ⟨-, h2, -⟩ := decimal_isDecimal i
  have := h2 c hc
  unfold isDigit at this
  simpa using this

theorem ipText_eq (i : Nat) : ipText i = b!"192.168.4." ++ decimal i := by rw [ipText, showDec_eq]

theorem needle_chars (i : Nat) : ∀ c ∈ needle i, c ≠ 9 ∧ c ≠ 10 ∧ c ≠ 32 := by
  intro c hc
  rw [needle, ipText_eq] at hc
  simp only [List.mem_append] at hc
  rcases hc with (hc | hc) | hc
  · revert c; decide
  · have := decimal_digits i c hc
    refine ⟨?_, ?_, ?_⟩ <;> (rintro rfl; revert this; decide)
  · revert c; decide

theorem needle_ne (i : Nat) : needle i ≠ [] := by simp [needle]

theorem needle_dot (i : Nat) : c!"." ∈ needle i := by
  rw [needle, ipText_eq]; simp

theorem key_no_dot (k : Key) : c!"." ∉ keyToBase64 k := by
  rw [keyToBase64_rfc]
  intro h
  have := rfc4648_mem k.toList _ h
  revert this; decide

theorem decimal_no (i : Nat) (c : UInt8) (hc : c < 48 ∨ 57 < c) : c ∉ decimal i := by
  intro h
  have h1 := decimal_digits i c h
  rcases hc with hc | hc
  · exact absurd h1.1 (by rw [UInt8.not_le]; exact hc)
  · exact absurd h1.2 (by rw [UInt8.not_le]; exact hc)

/-- One address is in the text of another only if they are the same. -/
theorem needle_infix (i h : Nat) (hi : needle i <:+: needle h) : i = h := by
  obtain ⟨u, v, he⟩ := hi
  have cnt : ∀ j, (needle j).count c!"." = 3 := by
    intro j
    rw [needle, ipText_eq, List.count_append, List.count_append, List.count_eq_zero.2 (decimal_no j c!"." (by decide))]
    decide
  have hc := congrArg (List.count c!".") he
  rw [List.count_append, List.count_append, cnt, cnt] at hc
  have hu : c!"." ∉ u := List.count_eq_zero.1 (by omega)
  have split : ∀ j, needle j = b!"192" ++ c!"." :: (b!"168.4." ++ decimal j ++ b!"/32") := by
    intro j; rw [needle, ipText_eq]; simp
  have hnil : u = [] := by
    rw [split i, split h] at he
    have h1 : (u ++ b!"192") ++ c!"." :: ((b!"168.4." ++ decimal i ++ b!"/32") ++ v) = b!"192" ++ c!"." :: (b!"168.4." ++ decimal h ++ b!"/32") := by
      rw [← he]; simp
    have h2 := congrArg (List.takeWhile (· ≠ c!".")) h1
    rw [List.takeWhile_append_of_pos, List.takeWhile_append_of_pos] at h2
    · simp at h2; exact h2
    · intro a ha
      simp only [decide_eq_true_eq]
      rintro rfl
      revert ha; decide
    · intro a ha
      simp only [decide_eq_true_eq]
      rintro rfl
      rcases List.mem_append.1 ha with ha | ha
      · exact hu ha
      · revert ha; decide
  subst hnil
  rw [List.nil_append, needle, needle, ipText_eq, ipText_eq, List.append_assoc, List.append_assoc, List.append_assoc] at he
  have h1 := List.append_cancel_left he
  have h2 : decimal i ++ c!"/" :: (b!"32" ++ v) = decimal h ++ c!"/" :: b!"32" := by simpa using h1
  have h3 := congrArg (List.takeWhile (· ≠ c!"/")) h2
  rw [List.takeWhile_append_of_pos, List.takeWhile_append_of_pos] at h3
  · simp at h3
    have h4 := (decimal_isDecimal i)
    have h5 := (decimal_isDecimal h)
    rw [h3] at h4
    exact h4.2.2.trans h5.2.2.symm
  · intro a ha
    simp only [decide_eq_true_eq]
    rintro rfl
    exact decimal_no h _ (by decide) ha
  · intro a ha
    simp only [decide_eq_true_eq]
    rintro rfl
    exact decimal_no i _ (by decide) ha

theorem infix_needle_iff (i h : Nat) : needle i <:+: needle h ↔ i = h :=
  ⟨needle_infix i h, by rintro rfl; exact List.infix_refl _⟩

theorem not_infix_key (i : Nat) (k : Key) : ¬ needle i <:+: keyToBase64 k := fun h => key_no_dot k (h.subset (needle_dot i))

/-- In the listing of peers with at most one address each. -/
theorem infix_words (i : Nat) (hs : List Nat) (h1 : hs.length ≤ 1) :
    needle i <:+: (if hs = [] then b!"(none)" else ((hs.map fun h => ipText h ++ b!"/32").intersperse b!" ").flatten) ↔ i ∈ hs := by
  match hs, h1 with
  | [], _ =>
    simp only [if_true, List.not_mem_nil, iff_false]
    intro h
    have := h.subset (needle_dot i)
    revert this; decide
  | [h], _ =>
    simp only [List.cons_ne_nil, if_false, List.map_cons, List.map_nil, List.intersperse_singleton, List.flatten_cons, List.flatten_nil,
      List.append_nil, List.mem_singleton]
    exact infix_needle_iff i h

theorem infix_allowed (i : Nat) (d : Iface) (h1 : ∀ p ∈ d, p.hosts.length ≤ 1) : needle i <:+: allowedText d ↔ ∃ p ∈ d, i ∈ p.hosts := by
  have hc := needle_chars i
  have h9 : (9 : UInt8) ∉ needle i := fun h => (hc 9 h).1 rfl
  have h10 : (10 : UInt8) ∉ needle i := fun h => (hc 10 h).2.1 rfl
  induction d with
  | nil =>
    simp only [allowedText, List.map_nil, List.flatten_nil, List.not_mem_nil, false_and, exists_false, iff_false]
    intro h
    exact needle_ne i (List.infix_nil.1 h)
  | cons p d ih =>
    have e : allowedText (p :: d) = keyToBase64 p.key ++ 9 :: ((if p.hosts = [] then b!"(none)" else
        ((p.hosts.map fun h => ipText h ++ b!"/32").intersperse b!" ").flatten) ++ 10 :: allowedText d) := by
      simp [allowedText]
    have ih' : (needle i <:+: allowedText d) = (∃ p ∈ d, i ∈ p.hosts) := propext <| ih (fun q hq => h1 q (by simp [hq]))
    rw [e, infix_sep h9 (needle_ne i), infix_sep h10 (needle_ne i), infix_words i p.hosts (h1 p (by simp)), ih']
    simp only [not_infix_key, false_or, List.mem_cons, exists_eq_or_imp]

/-! ### Choosing -/

def used (d : Iface) : List Nat := d.flatMap (·.hosts)

theorem mem_used (d : Iface) (i : Nat) : i ∈ used d ↔ ∃ p ∈ d, i ∈ p.hosts := List.mem_flatMap

theorem nextIp_some (d : Iface) (h1 : ∀ p ∈ d, p.hosts.length ≤ 1) (i : Nat) (h : nextIp d = some i) :
    2 ≤ i ∧ i ≤ 254 ∧ i ∉ used d ∧ ∀ j, 2 ≤ j → j < i → j ∈ used d := by
  unfold nextIp at h
  obtain ⟨hp, as, bs, hl, hb⟩ := List.find?_eq_some_iff_append.1 h
  have hm : i ∈ (List.range 253).map (· + 2) := by rw [hl]; simp
  obtain ⟨x, hx, rfl⟩ := List.mem_map.1 hm
  rw [List.mem_range] at hx
  simp only [decide_eq_true_eq] at hp
  refine ⟨by omega, by omega, ?_, ?_⟩
  · rw [mem_used, ← infix_allowed _ d h1]; exact hp
  · intro j hj hji
    have hjm : j ∈ (List.range 253).map (· + 2) := List.mem_map.2 ⟨j - 2, by rw [List.mem_range]; omega, by omega⟩
    have hja : j ∈ as := by
      rw [hl] at hjm
      have hsorted : ((List.range 253).map (· + 2)).Pairwise (· < ·) := by
        rw [List.pairwise_map]
        exact List.pairwise_lt_range.imp (by intro a b; omega)
      rw [hl] at hsorted
      rcases List.mem_append.1 hjm with hjm | hjm
      · exact hjm
      · exfalso
        have := (List.pairwise_append.1 hsorted).2.1
        rcases List.mem_cons.1 hjm with rfl | hjm
        · omega
        · have := (List.pairwise_cons.1 this).1 j hjm; omega
    have := hb j hja
    simp only [decide_not, Bool.not_not, decide_eq_true_eq] at this
    rw [mem_used, ← infix_allowed _ d h1]; exact this

theorem nextIp_exists (d : Iface) (h1 : ∀ p ∈ d, p.hosts.length ≤ 1) (hl : d.length < 253) : ∃ i, nextIp d = some i := by
  cases h : nextIp d with
  | some i => exact ⟨i, rfl⟩
  | none =>
    exfalso
    unfold nextIp at h
    rw [List.find?_eq_none] at h
    have hsub : (List.range 253).map (· + 2) ⊆ used d := by
      intro i hi
      have := h i hi
      simp only [decide_not, Bool.not_eq_eq_eq_not, Bool.not_true, decide_eq_false_iff_not, not_not] at this
      rw [mem_used, ← infix_allowed _ d h1]; exact this
    have hnd : ((List.range 253).map (· + 2)).Nodup := by
      refine List.Nodup.map ?_ List.nodup_range
      intro a b; simp
    have hle := (hnd.subperm hsub).length_le
    have hul : (used d).length ≤ d.length := by
      clear hl h hsub hle
      unfold used
      induction d with
      | nil => simp
      | cons p d ih =>
        have := h1 p (by simp)
        have := ih fun q hq => h1 q (by simp [hq])
        simp only [List.flatMap_cons, List.length_append, List.length_cons]
        omega
    simp at hle
    omega

/-! ### Fairness -/

theorem fair_one {d : Iface} (h : Fair d) : ∀ p ∈ d, p.hosts.length ≤ 1 := by
  intro p hp
  obtain ⟨x, hx, -⟩ := h.1 p hp
  simp [hx]

theorem makeRoom_sublist (oldest : Oldest) (d : Iface) : (makeRoom oldest d).Sublist d := by
  unfold makeRoom
  split
  · split
    · exact List.filter_sublist
    · exact List.Sublist.refl _
  · exact List.Sublist.refl _

theorem fair_sublist {d e : Iface} (h : Fair d) (hs : e.Sublist d) : Fair e :=
  ⟨fun p hp => h.1 p (hs.subset hp), h.2.1.sublist hs, Nat.le_trans hs.length_le h.2.2⟩

theorem makeRoom_length {oldest : Oldest} (ho : IsOldest oldest) {d : Iface} (h : Fair d) : (makeRoom oldest d).length < 253 := by
  unfold makeRoom
  by_cases hl : d.length ≥ 253
  · rw [if_pos hl]
    obtain ⟨p, hp, he, -⟩ := ho d (by rintro rfl; simp at hl)
    rw [he]
    simp only
    have : (d.filter fun q => decide (q.key ≠ p.key)).length < d.length := by
      rw [List.length_filter_lt_length_iff_exists]
      exact ⟨p, hp, by simp⟩
    have := h.2.2
    omega
  · rw [if_neg hl]; omega

/-- Giving an address that is free. -/
theorem give_free (d : Iface) (k : Key) (i : Nat) (hi : i ∉ used d) :
    give d k i = if d.any (fun p => p.key = k) then d.map (fun p => if p.key = k then { p with hosts := [i] } else p) else d ++ [⟨k, [i], 0⟩] := by
  have e : (d.map fun p => if p.key = k then p else { p with hosts := p.hosts.filter (· ≠ i) }) = d := by
    conv => rhs; rw [← List.map_id d]
    apply List.map_congr_left
    intro p hp
    by_cases hk : p.key = k
    · rw [if_pos hk]; rfl
    · rw [if_neg hk]
      have : p.hosts.filter (fun x => decide (x ≠ i)) = p.hosts := by
        rw [List.filter_eq_self]
        intro x hx
        simp only [ne_eq, decide_not, Bool.not_eq_eq_eq_not, Bool.not_true, decide_eq_false_iff_not]
        rintro rfl
        exact hi ((mem_used d x).2 ⟨p, hp, hx⟩)
      rw [this]; rfl
  unfold give
  simp only
  rw [e]

theorem fair_give {d : Iface} (h : Fair d) (k : Key) (i : Nat) (hi : i ∉ used d) (h2 : 2 ≤ i) (h254 : i ≤ 254) (hl : d.length < 253) : Fair (give d k i) := by
  rw [give_free d k i hi]
  have hfree : ∀ p ∈ d, i ∉ p.hosts := fun p hp hc => hi ((mem_used d i).2 ⟨p, hp, hc⟩)
  by_cases ha : d.any (fun p => decide (p.key = k)) = true
  · rw [if_pos ha]
    refine ⟨?_, ?_, by simpa using h.2.2⟩
    · intro p hp
      obtain ⟨q, hq, rfl⟩ := List.mem_map.1 hp
      by_cases hk : q.key = k
      · rw [if_pos hk]; exact ⟨i, rfl, h2, h254⟩
      · rw [if_neg hk]; exact h.1 q hq
    · rw [List.pairwise_map]
      refine h.2.1.imp_of_mem ?_
      intro p q hp hq hpq
      by_cases hk : p.key = k
      · have hk' : q.key ≠ k := fun hc => hpq.1 (hk.trans hc.symm)
        rw [if_pos hk, if_neg hk']
        refine ⟨hpq.1, ?_⟩
        intro x hx
        simp at hx; subst hx
        exact hfree q hq
      · rw [if_neg hk]
        by_cases hk' : q.key = k
        · rw [if_pos hk']
          refine ⟨hpq.1, ?_⟩
          intro x hx hc
          simp at hc; subst hc
          exact hfree p hp hx
        · rw [if_neg hk']; exact hpq
  · rw [if_neg ha]
    have hnk : ∀ p ∈ d, p.key ≠ k := by
      intro p hp hc
      exact ha (List.any_eq_true.2 ⟨p, hp, by simpa using hc⟩)
    refine ⟨?_, ?_, by simp; omega⟩
    · intro p hp
      rcases List.mem_append.1 hp with hp | hp
      · exact h.1 p hp
      · rw [List.mem_singleton] at hp; subst hp
        exact ⟨i, rfl, h2, h254⟩
    · rw [List.pairwise_append]
      refine ⟨h.2.1, by simp, ?_⟩
      intro p hp q hq
      rw [List.mem_singleton] at hq; subst hq
      refine ⟨hnk p hp, ?_⟩
      intro x hx hc
      simp at hc; subst hc
      exact hfree p hp hx

theorem fair_handshakes {d d' : Iface} (h : Fair d) (ht : Handshakes d d') : Fair d' := by
  unfold Handshakes at ht
  obtain ⟨h1, h2, h3⟩ := h
  refine ⟨?_, ?_, ?_⟩
  · intro p hp
    have : (p.key, p.hosts) ∈ d.map fun p => (p.key, p.hosts) := by rw [ht]; exact List.mem_map_of_mem (f := fun p : Peer => (p.key, p.hosts)) hp
    obtain ⟨q, hq, he⟩ := List.mem_map.1 this
    obtain ⟨x, hx, hb⟩ := h1 q hq
    have e2 : q.hosts = p.hosts := (Prod.ext_iff.1 he).2
    exact ⟨x, by rw [← e2]; exact hx, hb⟩
  · have aux : ∀ l : Iface, l.Pairwise (fun p q => p.key ≠ q.key ∧ ∀ h ∈ p.hosts, h ∉ q.hosts) ↔
        (l.map fun p => (p.key, p.hosts)).Pairwise (fun p q => p.1 ≠ q.1 ∧ ∀ h ∈ p.2, h ∉ q.2) := by
      intro l; rw [List.pairwise_map]
    rw [aux, ← ht, ← aux]
    exact h2
  · have := congrArg List.length ht
    simp at this
    omega

theorem fair_session {oldest : Oldest} (ho : IsOldest oldest) (pub : Key) (port : Nat) {d : Iface} (h : Fair d) (input : List UInt8) :
    Fair (session oldest pub port d input).1 := by
  unfold session assign
  have hr := fair_sublist h (makeRoom_sublist oldest d)
  have hl := makeRoom_length ho h
  obtain ⟨i, hi⟩ := nextIp_exists _ (fair_one hr) hl
  obtain ⟨h2, h254, hf, -⟩ := nextIp_some _ (fair_one hr) i hi
  simp only [hi]
  cases hk : keyFromBase64 true (readLine input) with
  | none => exact hr
  | some k => exact fair_give hr k i hf h2 h254 hl

theorem reaches_fair {oldest : Oldest} (ho : IsOldest oldest) {pub : Key} {port : Nat} {d : Iface} (h : Reaches oldest pub port d) : Fair d := by
  induction h with
  | fresh => exact ⟨by simp, List.Pairwise.nil, by simp⟩
  | traffic _ ht ih => exact fair_handshakes ih ht
  | connection _ input ih => exact fair_session ho pub port ih input

theorem find_unique {d : Iface} (h : Fair d) (p : Peer) (hp : p ∈ d) : d.find? (fun q => decide (q.key = p.key)) = some p := by
  obtain ⟨-, h2, -⟩ := h
  induction d with
  | nil => simp at hp
  | cons q d ih =>
    rw [List.pairwise_cons] at h2
    rw [List.find?_cons]
    rcases List.mem_cons.1 hp with rfl | hp
    · simp
    · have : q.key ≠ p.key := (h2.1 p hp).1
      simp only [this, decide_false]
      exact ih hp h2.2

/-! ### Overlapping connections -/

/-- At most one address each, never shared. -/
def Alone (d : Iface) : Prop :=
  (∀ p ∈ d, p.hosts.length ≤ 1) ∧ d.Pairwise (fun p q => p.key ≠ q.key ∧ ∀ h ∈ p.hosts, h ∉ q.hosts)

theorem alone_give {d : Iface} (h : Alone d) (k : Key) (i : Nat) : Alone (give d k i) := by
  obtain ⟨h1, h2⟩ := h
  unfold give
  simp only
  generalize hd : (d.map fun p => if p.key = k then p else { p with hosts := p.hosts.filter (· ≠ i) }) = e
  have e1 : ∀ p ∈ e, p.hosts.length ≤ 1 ∧ (p.key ≠ k → i ∉ p.hosts) := by
    rw [← hd]
    intro p hp
    obtain ⟨q, hq, rfl⟩ := List.mem_map.1 hp
    by_cases hk : q.key = k
    · rw [if_pos hk]; exact ⟨h1 q hq, fun hc => absurd hk hc⟩
    · rw [if_neg hk]
      exact ⟨Nat.le_trans (List.length_filter_le _ _) (h1 q hq), fun _ => by simp⟩
  have e2 : e.Pairwise (fun p q => p.key ≠ q.key ∧ ∀ h ∈ p.hosts, h ∉ q.hosts) := by
    rw [← hd, List.pairwise_map]
    refine h2.imp ?_
    rintro p q ⟨hk, hh⟩
    have sub : ∀ (p : Peer), (if p.key = k then p else { p with hosts := p.hosts.filter (· ≠ i) }).key = p.key ∧
        ∀ x ∈ (if p.key = k then p else { p with hosts := p.hosts.filter (· ≠ i) }).hosts, x ∈ p.hosts := by
      intro p
      by_cases hp : p.key = k
      · rw [if_pos hp]; exact ⟨rfl, fun _ hx => hx⟩
      · rw [if_neg hp]; exact ⟨rfl, fun _ hx => List.mem_of_mem_filter hx⟩
    refine ⟨by rw [(sub p).1, (sub q).1]; exact hk, ?_⟩
    intro x hx hc
    exact hh x ((sub p).2 x hx) ((sub q).2 x hc)
  split
  · refine ⟨?_, ?_⟩
    · intro p hp
      obtain ⟨q, hq, rfl⟩ := List.mem_map.1 hp
      by_cases hk : q.key = k
      · rw [if_pos hk]; simp
      · rw [if_neg hk]; exact (e1 q hq).1
    · rw [List.pairwise_map]
      refine e2.imp_of_mem ?_
      intro p q hp hq hpq
      by_cases hk : p.key = k
      · have hk' : q.key ≠ k := fun hc => hpq.1 (hk.trans hc.symm)
        rw [if_pos hk, if_neg hk']
        refine ⟨hpq.1, ?_⟩
        intro x hx
        simp at hx; subst hx
        exact (e1 q hq).2 hk'
      · rw [if_neg hk]
        by_cases hk' : q.key = k
        · rw [if_pos hk']
          refine ⟨hpq.1, ?_⟩
          intro x hx hc
          simp at hc; subst hc
          exact (e1 p hp).2 hk hx
        · rw [if_neg hk']; exact hpq
  · rename_i ha
    have hnk : ∀ p ∈ e, p.key ≠ k := by
      rw [← hd]
      intro p hp hc
      obtain ⟨q, hq, rfl⟩ := List.mem_map.1 hp
      apply ha
      refine List.any_eq_true.2 ⟨q, hq, ?_⟩
      by_cases hk : q.key = k
      · simpa using hk
      · rw [if_neg hk] at hc; exact absurd hc hk
    refine ⟨?_, ?_⟩
    · intro p hp
      rcases List.mem_append.1 hp with hp | hp
      · exact (e1 p hp).1
      · rw [List.mem_singleton] at hp; subst hp; simp
    · rw [List.pairwise_append]
      refine ⟨e2, by simp, ?_⟩
      intro p hp q hq
      rw [List.mem_singleton] at hq; subst hq
      refine ⟨hnk p hp, ?_⟩
      intro x hx hc
      simp at hc; subst hc
      exact (e1 p hp).2 (hnk p hp) hx

theorem interleaved_alone {oldest : Oldest} {d : Iface} (h : Interleaved oldest d) : Alone d := by
  induction h with
  | fresh => exact ⟨by simp, List.Pairwise.nil⟩
  | traffic _ ht ih =>
    rename_i d d' _
    unfold Handshakes at ht
    constructor
    · intro p hp
      have : (p.key, p.hosts) ∈ d.map fun p => (p.key, p.hosts) := by rw [ht]; exact List.mem_map_of_mem (f := fun p : Peer => (p.key, p.hosts)) hp
      obtain ⟨q, hq, he⟩ := List.mem_map.1 this
      have e2 : q.hosts = p.hosts := (Prod.ext_iff.1 he).2
      rw [← e2]; exact ih.1 q hq
    · have aux : ∀ l : Iface, l.Pairwise (fun p q => p.key ≠ q.key ∧ ∀ h ∈ p.hosts, h ∉ q.hosts) ↔
          (l.map fun p => (p.key, p.hosts)).Pairwise (fun p q => p.1 ≠ q.1 ∧ ∀ h ∈ p.2, h ∉ q.2) := by
        intro l; rw [List.pairwise_map]
      rw [aux, ← ht, ← aux]
      exact ih.2
  | remove _ _ k _ ih _ => exact ⟨fun p hp => ih.1 p (List.mem_of_mem_filter hp), ih.2.sublist List.filter_sublist⟩
  | gives _ _ k i _ ih _ => exact alone_give ih k i

/-! ### The answer -/

theorem takeWhile_colon (a r : List UInt8) (c : UInt8) (h : c ∉ a) : (a ++ c :: r).takeWhile (· ≠ c) = a ∧ (a ++ c :: r).dropWhile (· ≠ c) = c :: r := by
  have : ∀ x ∈ a, decide (x ≠ c) = true := by intro x hx; simp only [decide_eq_true_eq]; rintro rfl; exact h hx
  rw [List.takeWhile_append_of_pos this, List.dropWhile_append_of_pos this]
  simp

theorem key_no (k : Key) (c : UInt8) (h : c ∉ b64Alphabet ++ b!"=") : c ∉ keyToBase64 k := by
  rw [keyToBase64_rfc]
  exact fun hm => h (rfc4648_mem _ _ hm)

theorem ip_no (i : Nat) (c : UInt8) (h : c < 46 ∨ 57 < c) : c ∉ ipText i := by
  rw [ipText_eq]
  intro hm
  rcases List.mem_append.1 hm with hm | hm
  · have : ∀ x ∈ b!"192.168.4.", 46 ≤ x ∧ x ≤ 57 := by decide
    have := this c hm
    rcases h with h | h
    · exact absurd this.1 (by rw [UInt8.not_le]; exact h)
    · exact absurd this.2 (by rw [UInt8.not_le]; exact h)
  · refine decimal_no i c ?_ hm
    rcases h with h | h
    · left; exact UInt8.lt_trans h (by decide)
    · exact Or.inr h

theorem client_reads (pub : Key) (port i : Nat) :
    clientReads (answer pub port (some i)) = some (rfc4648 pub.toList, decimal port, b!"192.168.4." ++ decimal i) := by
  unfold clientReads answer
  have hline : (b!"OK:" ++ keyToBase64 pub ++ b!":" ++ showDec port ++ b!":" ++ ipText i ++ b!"\n").takeWhile (· ≠ 10) =
      b!"OK" ++ 58 :: (keyToBase64 pub ++ 58 :: (decimal port ++ 58 :: ipText i)) := by
    have := (takeWhile_colon (b!"OK:" ++ keyToBase64 pub ++ b!":" ++ showDec port ++ b!":" ++ ipText i) [] 10 (by
      rw [showDec_eq]
      simp only [List.mem_append, not_or]
      exact ⟨⟨⟨⟨⟨by decide, key_no pub 10 (by decide)⟩, by decide⟩, decimal_no port 10 (by decide)⟩, by decide⟩, ip_no i 10 (by decide)⟩)).1
    rw [show b!"\n" = [10] from rfl, this, showDec_eq]
    simp
  simp only [hline]
  have k1 := takeWhile_colon b!"OK" (keyToBase64 pub ++ 58 :: (decimal port ++ 58 :: ipText i)) 58 (by decide)
  have k2 := takeWhile_colon (keyToBase64 pub) (decimal port ++ 58 :: ipText i) 58 (key_no pub 58 (by decide))
  have k3 := takeWhile_colon (decimal port) (ipText i) 58 (decimal_no port 58 (by decide))
  simp only [k1.1, k1.2, List.drop_succ_cons, List.drop_zero, k2.1, k2.2, k3.1, k3.2, if_true]
  rw [keyToBase64_rfc, ipText_eq]

/-! ### One connection -/

theorem give_mem {d : Iface} {k : Key} {i : Nat} (hi : i ∉ used d) :
    (∀ p ∈ give d k i, p.key ≠ k → p ∈ d) ∧ (∀ p ∈ d, p.key ≠ k → p ∈ give d k i) ∧ ∃ p ∈ give d k i, p.key = k ∧ p.hosts = [i] := by
  rw [give_free d k i hi]
  by_cases ha : d.any (fun p => decide (p.key = k)) = true
  · rw [if_pos ha]
    refine ⟨?_, ?_, ?_⟩
    · intro p hp hk
      obtain ⟨q, hq, rfl⟩ := List.mem_map.1 hp
      by_cases hqk : q.key = k
      · rw [if_pos hqk] at hk; exact absurd hqk hk
      · rw [if_neg hqk]; exact hq
    · intro p hp hk
      exact List.mem_map.2 ⟨p, hp, if_neg hk⟩
    · obtain ⟨q, hq, hk⟩ := List.any_eq_true.1 ha
      have hk : q.key = k := by simpa using hk
      exact ⟨{ q with hosts := [i] }, List.mem_map.2 ⟨q, hq, if_pos hk⟩, hk, rfl⟩
  · rw [if_neg ha]
    refine ⟨?_, fun p hp _ => List.mem_append_left _ hp, ⟨k, [i], 0⟩, by simp, rfl, rfl⟩
    intro p hp hk
    rcases List.mem_append.1 hp with hp | hp
    · exact hp
    · rw [List.mem_singleton] at hp; subst hp; exact absurd rfl hk

theorem makeRoom_small (oldest : Oldest) (d : Iface) (h : d.length < 253) : makeRoom oldest d = d := by
  unfold makeRoom; rw [if_neg (by omega)]

/-- A full interface loses one peer, the one that is the oldest. -/
theorem makeRoom_full {oldest : Oldest} (ho : IsOldest oldest) {d : Iface} (h : Fair d) (hl : d.length = 253) :
    ∃ p ∈ d, (∀ q ∈ d, p.handshake ≤ q.handshake) ∧ p ∉ makeRoom oldest d ∧ ∀ q ∈ d, q ≠ p → q ∈ makeRoom oldest d := by
  obtain ⟨p, hp, he, hm⟩ := ho d (by rintro rfl; simp at hl)
  refine ⟨p, hp, hm, ?_, ?_⟩
  · unfold makeRoom
    rw [if_pos (by omega), he]
    simp
  · intro q hq hne
    unfold makeRoom
    rw [if_pos (by omega), he]
    simp only
    rw [List.mem_filter]
    refine ⟨hq, ?_⟩
    simp only [ne_eq, decide_not, Bool.not_eq_eq_eq_not, Bool.not_true, decide_eq_false_iff_not]
    intro hk
    have h1 := find_unique h p hp
    have h2 := find_unique h q hq
    rw [hk, h1] at h2
    exact hne (Option.some.inj h2).symm

theorem addressOf_eq {d : Iface} (h : Fair d) {p : Peer} (hp : p ∈ d) {i : Nat} (hi : p.hosts = [i]) : addressOf d p.key = some i := by
  unfold addressOf
  rw [find_unique h p hp]
  simp [hi]

theorem readLine_key (k : Key) (rest : List UInt8) : readLine (rfc4648 k.toList ++ 10 :: rest) = rfc4648 k.toList := by
  have hm := rfc4648_mem k.toList
  have aux : ∀ c : UInt8, c ∈ b64Alphabet ++ b!"=" → c ≠ 10 ∧ c ≠ 0 ∧ c ≠ 32 ∧ c ≠ 9 := by
    apply forall_u8
    decide +kernel
  have hc : ∀ c ∈ rfc4648 k.toList, c ≠ 10 ∧ c ≠ 0 ∧ c ≠ 32 ∧ c ≠ 9 := fun c hcm => aux c (hm c hcm)
  unfold readLine
  simp only
  rw [(takeWhile_colon (rfc4648 k.toList) rest 10 (fun h => (hc 10 h).1 rfl)).1]
  rw [List.filter_eq_self.2 (by intro c h; simpa using (hc c h).2.1)]
  have drop : ∀ l : List UInt8, (∀ c ∈ l, c ≠ 32 ∧ c ≠ 9) → l.dropWhile (fun c => decide (c = 32 ∨ c = 9)) = l := by
    intro l hl
    cases l with
    | nil => rfl
    | cons c l =>
      have := hl c (by simp)
      rw [List.dropWhile_cons_of_neg]
      simpa using this
  rw [drop _ (fun c h => (hc c h).2.2), drop _ (by intro c h; exact (hc c (List.mem_reverse.1 h)).2.2), List.reverse_reverse]

/-- What happens to a connection nobody interferes with. -/
theorem session_cases {oldest : Oldest} (ho : IsOldest oldest) (pub : Key) (port : Nat) {d : Iface} (h : Fair d) (input : List UInt8) :
    (∃ k i, readLine input = rfc4648 k.toList ∧ 2 ≤ i ∧ i ≤ 254 ∧ i ∉ used (makeRoom oldest d) ∧ (∀ j, 2 ≤ j → j < i → j ∈ used (makeRoom oldest d)) ∧
      session oldest pub port d input = (give (makeRoom oldest d) k i, answer pub port (some i))) ∨
    (∀ k : Key, readLine input ≠ rfc4648 k.toList) ∧ session oldest pub port d input = (makeRoom oldest d, b!"ERROR\n") := by
  have hr := fair_sublist h (makeRoom_sublist oldest d)
  obtain ⟨i, hi⟩ := nextIp_exists _ (fair_one hr) (makeRoom_length ho h)
  obtain ⟨h2, h254, hf, hlow⟩ := nextIp_some _ (fair_one hr) i hi
  unfold session assign
  simp only [hi]
  cases hk : keyFromBase64 true (readLine input) with
  | some k =>
    left
    refine ⟨k, i, ?_, h2, h254, hf, hlow, rfl⟩
    rw [← keyToBase64_rfc]; exact (keyFromBase64_some true _ k).1 hk
  | none =>
    right
    refine ⟨?_, rfl⟩
    intro k hc
    rw [← keyToBase64_rfc] at hc
    rw [(keyFromBase64_some true _ k).2 hc] at hk
    cases hk

end WG.Demo
