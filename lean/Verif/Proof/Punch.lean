import Verif.Spec.Punch
import Mathlib.Data.List.Induction
import Mathlib.Data.List.Dedup
import Mathlib.Data.List.Perm.Subperm
import Mathlib.Tactic.NormNum
/-! The table of the server is a queue, turned by `next_entry`. -/
namespace WG.Punch
open WG.Spec.Punch

abbrev keys (q : Queue) : List PubKey := q.map Prod.fst

def pairs (t : Table) : Queue := t.entries.map fun e => (e.pubkey, e.addr)

theorem pairs_length (t : Table) : (pairs t).length = t.entries.length := by simp [pairs]

/-- The request in the table. -/
def hearT (l : Queue) (n : Nat) (k : PubKey) (a : Place) : Queue :=
  if k ∈ keys l then renew k a l else l.set (n % maxEntries) (k, a)

theorem renew_keys (k : PubKey) (a : Place) (l : Queue) : keys (renew k a l) = keys l := by
  induction l with
  | nil => rfl
  | cons p l ih =>
    obtain ⟨x, b⟩ := p
    unfold renew
    by_cases h : x = k
    · simp [h, keys]
    · simp only [if_neg h]; simp only [keys, List.map_cons] at ih ⊢; rw [ih]

theorem renew_length (k : PubKey) (a : Place) (l : Queue) : (renew k a l).length = l.length := by
  have := congrArg List.length (renew_keys k a l); simpa [keys] using this

theorem renew_append (k : PubKey) (a : Place) (x y : Queue) :
    renew k a (x ++ y) = if k ∈ keys x then renew k a x ++ y else x ++ renew k a y := by
  induction x with
  | nil => simp [keys]
  | cons p x ih =>
    obtain ⟨c, b⟩ := p
    by_cases h : c = k
    · simp [renew, keys, h]
    · simp only [List.cons_append, renew, if_neg h]
      rw [ih]
      have hk : (k ∈ keys ((c, b) :: x)) ↔ k ∈ keys x := by
        simp [keys, Ne.symm h]
      by_cases hm : k ∈ keys x
      · simp [hm]
      · rw [if_neg hm, if_neg (by rw [hk]; exact hm)]

theorem known_append (k : PubKey) (x y : Queue) : known (x ++ y) k = if k ∈ keys x then known x k else known y k := by
  unfold known
  rw [List.find?_append]
  by_cases h : k ∈ keys x
  · rw [if_pos h]
    obtain ⟨p, hp, hk⟩ := List.mem_map.1 h
    cases hf : x.find? (fun p => decide (p.1 = k)) with
    | none =>
      rw [List.find?_eq_none] at hf
      exact absurd hk (by simpa using hf p hp)
    | some v => rfl
  · rw [if_neg h]
    have : x.find? (fun p => decide (p.1 = k)) = none := by
      rw [List.find?_eq_none]
      intro p hp
      simp only [decide_eq_true_eq]
      rintro rfl
      exact h (List.mem_map_of_mem hp)
    rw [this]; rfl

theorem findIdx?_pairs (es : List Entry) (k : PubKey) :
    (es.findIdx? fun e => decide (e.pubkey = k)).isSome = decide (k ∈ keys (es.map fun e => (e.pubkey, e.addr))) := by
  induction es with
  | nil => simp [keys]
  | cons e es ih =>
    rw [List.findIdx?_cons]
    by_cases h : e.pubkey = k
    · simp [h, keys]
    · simp only [h, decide_false, Bool.false_eq_true, ↓reduceIte, Option.isSome_map, ih]
      simp [keys, Ne.symm h]

/-- The entry that was found gets the address. -/
theorem modify_found (es : List Entry) (k : PubKey) (a : Place) (i : Nat) (h : (es.findIdx? fun e => decide (e.pubkey = k)) = some i) :
    (es.modify i fun e => { e with addr := a }).map (fun e => (e.pubkey, e.addr)) = renew k a (es.map fun e => (e.pubkey, e.addr)) := by
  induction es generalizing i with
  | nil => simp at h
  | cons e es ih =>
    rw [List.findIdx?_cons] at h
    by_cases hk : e.pubkey = k
    · simp [hk] at h; subst h; simp [renew, hk]
    · simp only [hk, decide_false, Bool.false_eq_true, ↓reduceIte, Option.map_eq_some_iff] at h
      obtain ⟨j, hj, rfl⟩ := h
      simp only [List.modify_succ_cons, List.map_cons, renew, if_neg hk]
      rw [ih j hj]

theorem found_known (es : List Entry) (k : PubKey) :
    (match es.findIdx? fun e => decide (e.pubkey = k) with
      | some j => (es[j]?).map (·.addr)
      | none => none) = known (es.map fun e => (e.pubkey, e.addr)) k ∧
    ∀ j, (es.findIdx? fun e => decide (e.pubkey = k)) = some j → (es[j]?).isSome := by
  induction es with
  | nil => simp [known]
  | cons e es ih =>
    obtain ⟨ih1, ih2⟩ := ih
    rw [List.findIdx?_cons]
    by_cases hk : e.pubkey = k
    · simp [hk, known]
    · simp only [hk, decide_false, Bool.false_eq_true, ↓reduceIte]
      cases hf : es.findIdx? fun e => decide (e.pubkey = k) with
      | none =>
        rw [hf] at ih1
        simp only [known, List.map_cons, List.find?_cons, hk, decide_false] at ih1 ⊢
        refine ⟨by simpa using ih1, by simp⟩
      | some j =>
        rw [hf] at ih1
        simp only [known, List.map_cons, List.find?_cons, hk, decide_false, Option.map_some, List.getElem?_cons_succ] at ih1 ⊢
        refine ⟨ih1, ?_⟩
        intro i hi
        cases hi
        simpa using ih2 j hf

theorem modify_modify_set (es : List Entry) (i : Nat) (k : PubKey) (a : Place) :
    ((es.modify i fun e => { e with pubkey := k }).modify i fun e => { e with addr := a }).map (fun e => (e.pubkey, e.addr)) =
      (es.map fun e => (e.pubkey, e.addr)).set i (k, a) := by
  induction es generalizing i with
  | nil => simp
  | cons e es ih =>
    cases i with
    | zero => simp
    | succ i => simp only [List.modify_succ_cons, List.map_cons, List.set_cons_succ, ih]

/-- A request, in the table and on the wire. -/
theorem turn_request (t : Table) (r : Recv) (q : Request) (h : request r = some q) :
    pairs (turn t r).1 = hearT (pairs t) t.next q.own q.sender ∧
    (turn t r).1.next = (if q.own ∈ keys (pairs t) then t.next else (t.next + 1) % 2 ^ 32) ∧
    (turn t r).2 = [⟨answer (known (pairs (turn t r).1) q.wanted), q.sender⟩] := by
  cases r with
  | error => simp [request] at h
  | datagram data sender =>
    simp only [request] at h
    by_cases hl : 64 ≤ data.length
    · rw [if_pos hl] at h
      cases h
      have hlen : ¬ (data.take 64).length ≠ 64 := by simp; omega
      have htake : (data.take 64).take 32 = data.take 32 := by rw [List.take_take]; rfl
      unfold turn
      simp only [if_neg hlen, htake]
      unfold findOrInsert
      have key : ∀ (t' : Table) (s : Place) (w : PubKey), reply t' w s = [⟨answer (known (pairs t') w), s⟩] := by
        intro t' s w
        obtain ⟨h1, h2⟩ := found_known t'.entries w
        unfold reply findEntry pairs
        cases hf : t'.entries.findIdx? fun e => decide (e.pubkey = w) with
        | none => rw [hf] at h1; rw [← h1]; rfl
        | some j =>
          rw [hf] at h1
          have h3 := h2 j hf
          obtain ⟨e, he⟩ := Option.isSome_iff_exists.1 h3
          rw [← h1]
          simp [he, answer]
      cases hf : findEntry t (data.take 32) with
      | some i =>
        simp only []
        rw [key]
        have hm : data.take 32 ∈ keys (pairs t) := by
          have := findIdx?_pairs t.entries (data.take 32)
          rw [show (t.entries.findIdx? fun e => decide (e.pubkey = data.take 32)) = some i from hf] at this
          exact of_decide_eq_true this.symm
        refine ⟨?_, ?_, rfl⟩
        · unfold hearT; rw [if_pos hm]; exact modify_found _ _ _ _ hf
        · simp [hm]
      | none =>
        simp only []
        rw [key]
        have hm : data.take 32 ∉ keys (pairs t) := by
          have := findIdx?_pairs t.entries (data.take 32)
          rw [show (t.entries.findIdx? fun e => decide (e.pubkey = data.take 32)) = none from hf] at this
          exact of_decide_eq_false this.symm
        refine ⟨?_, ?_, rfl⟩
        · unfold hearT; rw [if_neg hm]; exact modify_modify_set _ _ _ _
        · simp [hm]
    · rw [if_neg hl] at h; cases h

/-- Anything else changes nothing and is not answered. -/
theorem turn_other (t : Table) (r : Recv) (h : request r = none) : turn t r = (t, []) := by
  cases r with
  | error => rfl
  | datagram data sender =>
    simp only [request] at h
    by_cases hl : 64 ≤ data.length
    · simp [hl] at h
    · unfold turn
      have : (data.take 64).length ≠ 64 := by simp; omega
      simp only [if_pos this]

/-! ### The queue -/

/-- Fewer insertions than places: the rest still belongs to the zero key. Otherwise no key has two places. -/
def Inv (l : Queue) (n : Nat) : Prop :=
  l.length = maxEntries ∧
  ((∃ x z, l = x ++ z ∧ n = x.length ∧ x.length < maxEntries ∧ (keys x).Nodup ∧ zeroKey ∉ keys x ∧ ∀ p ∈ z, p.1 = zeroKey) ∨ (keys l).Nodup)

def turned (l : Queue) (n : Nat) : Queue := l.drop (n % maxEntries) ++ l.take (n % maxEntries)

theorem maxEntries_pos : 0 < maxEntries := by unfold maxEntries; omega

theorem inv_disjoint {l : Queue} {n : Nat} (h : Inv l n) (k : PubKey) (h1 : k ∈ keys (l.take (n % maxEntries)))
    (h2 : k ∈ keys (l.drop (n % maxEntries))) : False := by
  obtain ⟨hl, ⟨x, z, rfl, rfl, hx, hn, hz, hzz⟩ | hn⟩ := h
  · rw [Nat.mod_eq_of_lt hx] at h1 h2
    simp only [List.take_left, List.drop_left] at h1 h2
    obtain ⟨p, hp, rfl⟩ := List.mem_map.1 h2
    rw [hzz p hp] at h1
    exact hz h1
  · have e : keys l = keys (l.take (n % maxEntries)) ++ keys (l.drop (n % maxEntries)) := by
      rw [keys, keys, keys, ← List.map_append, List.take_append_drop]
    rw [e] at hn
    exact (List.nodup_append.1 hn).2.2 k h1 k h2 rfl

theorem turned_mem (l : Queue) (n : Nat) (k : PubKey) : k ∈ keys (turned l n) ↔ k ∈ keys l := by
  unfold turned
  conv => rhs; rw [← List.take_append_drop (n % maxEntries) l]
  simp only [keys, List.map_append, List.mem_append]
  exact Or.comm

theorem turned_known {l : Queue} {n : Nat} (h : Inv l n) (k : PubKey) : known (turned l n) k = known l k := by
  unfold turned
  conv => rhs; rw [← List.take_append_drop (n % maxEntries) l]
  rw [known_append, known_append]
  by_cases h1 : k ∈ keys (l.take (n % maxEntries))
  · have h2 : k ∉ keys (l.drop (n % maxEntries)) := fun h2 => inv_disjoint h k h1 h2
    rw [if_neg h2, if_pos h1]
  · rw [if_neg h1]
    by_cases h2 : k ∈ keys (l.drop (n % maxEntries))
    · rw [if_pos h2]
    · rw [if_neg h2]
      have aux : ∀ y : Queue, k ∉ keys y → known y k = none := by
        intro y hy
        have := known_append k y []
        rw [if_neg hy, List.append_nil] at this
        rw [this]; rfl
      rw [aux _ h1, aux _ h2]

theorem renew_not_mem (k : PubKey) (a : Place) (l : Queue) (h : k ∉ keys l) : renew k a l = l := by
  have := renew_append k a l []
  rw [if_neg h] at this
  simpa [renew] using this

theorem turned_renew {l : Queue} {n : Nat} (h : Inv l n) (k : PubKey) (a : Place) : turned (renew k a l) n = renew k a (turned l n) := by
  unfold turned
  have e : renew k a l = renew k a (l.take (n % maxEntries)) ++ renew k a (l.drop (n % maxEntries)) := by
    conv => lhs; rw [← List.take_append_drop (n % maxEntries) l]
    rw [renew_append]
    by_cases h1 : k ∈ keys (l.take (n % maxEntries))
    · rw [if_pos h1, renew_not_mem k a _ fun h2 => inv_disjoint h k h1 h2]
    · rw [if_neg h1, renew_not_mem k a _ h1]
  have hlen : (renew k a (l.take (n % maxEntries))).length = n % maxEntries := by
    rw [renew_length, List.length_take, h.1]
    have := Nat.mod_lt n maxEntries_pos
    omega
  rw [e, List.drop_left' hlen, List.take_left' hlen, renew_append]
  by_cases h2 : k ∈ keys (l.drop (n % maxEntries))
  · rw [if_pos h2, renew_not_mem k a (l.take _) fun h1 => inv_disjoint h k h1 h2]
  · rw [if_neg h2, renew_not_mem k a (l.drop _) h2]

theorem turned_set {l : Queue} {n : Nat} (h : l.length = maxEntries) (p : PubKey × Place) :
    turned (l.set (n % maxEntries) p) ((n + 1) % 2 ^ 32) = (turned l n).drop 1 ++ [p] := by
  unfold turned
  have hr := Nat.mod_lt n maxEntries_pos
  have hm : (n + 1) % 2 ^ 32 % maxEntries = (n + 1) % maxEntries := by
    apply Nat.mod_mod_of_dvd; unfold maxEntries; exact ⟨65536, by norm_num⟩
  rw [hm]
  have hdrop : l.drop (n % maxEntries) ≠ [] := by
    intro hc
    have := congrArg List.length hc
    simp [h] at this; omega
  by_cases hc : n % maxEntries + 1 = maxEntries
  · have h0 : (n + 1) % maxEntries = 0 := by
      rw [Nat.add_mod, Nat.mod_eq_of_lt (a := 1) (by unfold maxEntries; omega), hc, Nat.mod_self]
    rw [h0]
    simp only [List.drop_zero, List.take_zero, List.append_nil]
    rw [List.set_eq_take_append_cons_drop, if_pos (by omega)]
    have e1 : l.drop (n % maxEntries + 1) = [] := List.drop_eq_nil_of_le (by omega)
    have e2 : (l.drop (n % maxEntries) ++ l.take (n % maxEntries)).drop 1 = l.take (n % maxEntries) := by
      rw [List.drop_append_of_le_length (by rw [List.length_drop]; omega), List.drop_drop, e1, List.nil_append]
    rw [e1, e2]
  · have h1 : (n + 1) % maxEntries = n % maxEntries + 1 := by
      rw [Nat.add_mod, Nat.mod_eq_of_lt (a := 1) (by unfold maxEntries; omega), Nat.mod_eq_of_lt (by omega)]
    rw [h1, List.set_eq_take_append_cons_drop, if_pos (by omega)]
    have hlt : (l.take (n % maxEntries)).length = n % maxEntries := by rw [List.length_take]; omega
    have ed : (l.take (n % maxEntries) ++ p :: l.drop (n % maxEntries + 1)).drop (n % maxEntries + 1) = l.drop (n % maxEntries + 1) := by
      rw [List.drop_append, hlt]; simp
    have et : (l.take (n % maxEntries) ++ p :: l.drop (n % maxEntries + 1)).take (n % maxEntries + 1) = l.take (n % maxEntries) ++ [p] := by
      rw [List.take_append, hlt, List.take_of_length_le (by omega)]; simp
    rw [ed, et, List.drop_append_of_le_length (by rw [List.length_drop]; omega), List.drop_drop, List.append_assoc]

theorem inv_renew {l : Queue} {n : Nat} (h : Inv l n) (k : PubKey) (a : Place) : Inv (renew k a l) n := by
  obtain ⟨hl, ⟨x, z, rfl, rfl, hx, hn, hz, hzz⟩ | hn⟩ := h
  · refine ⟨by rw [renew_length]; exact hl, Or.inl ?_⟩
    rw [renew_append]
    by_cases hm : k ∈ keys x
    · rw [if_pos hm]
      exact ⟨renew k a x, z, rfl, (renew_length _ _ _).symm, by rw [renew_length]; exact hx, by rw [renew_keys]; exact hn,
        by rw [renew_keys]; exact hz, hzz⟩
    · rw [if_neg hm]
      refine ⟨x, renew k a z, rfl, rfl, hx, hn, hz, ?_⟩
      intro p hp
      have : p.1 ∈ keys (renew k a z) := List.mem_map_of_mem hp
      rw [renew_keys] at this
      obtain ⟨p', hp', he⟩ := List.mem_map.1 this
      rw [← he]; exact hzz p' hp'
  · exact ⟨by rw [renew_length]; exact hl, Or.inr (by rw [renew_keys]; exact hn)⟩

theorem nodup_set {l : Queue} (i : Nat) (p : PubKey × Place) (hn : (keys l).Nodup) (h : p.1 ∉ keys l) : (keys (l.set i p)).Nodup := by
  induction l generalizing i with
  | nil => simp
  | cons q l ih =>
    simp only [keys, List.map_cons, List.nodup_cons, List.mem_cons, not_or] at hn h
    cases i with
    | zero =>
      simp only [List.set_cons_zero, keys, List.map_cons, List.nodup_cons]
      exact ⟨h.2, hn.2⟩
    | succ i =>
      simp only [List.set_cons_succ, keys, List.map_cons, List.nodup_cons]
      refine ⟨?_, ih i hn.2 h.2⟩
      intro hc
      obtain ⟨y, hy, he⟩ := List.mem_map.1 hc
      rcases List.mem_or_eq_of_mem_set hy with hy | hy
      · exact hn.1 (by rw [← he]; exact List.mem_map_of_mem hy)
      · subst hy; exact h.1 he

theorem inv_set {l : Queue} {n : Nat} (h : Inv l n) (k : PubKey) (a : Place) (hk : k ∉ keys l) :
    Inv (l.set (n % maxEntries) (k, a)) ((n + 1) % 2 ^ 32) := by
  obtain ⟨hl, ⟨x, z, rfl, rfl, hx, hn, hz, hzz⟩ | hn⟩ := h
  · have hzne : z ≠ [] := by
      rintro rfl
      simp at hl; omega
    obtain ⟨w, z, rfl⟩ := List.exists_cons_of_ne_nil hzne
    have hk0 : k ≠ zeroKey := by
      rintro rfl
      apply hk
      simp [keys, hzz w (by simp)]
    have hkx : k ∉ keys x := fun hc => hk (by simp only [keys, List.map_append, List.mem_append]; exact Or.inl hc)
    have hmod : (x.length + 1) % 2 ^ 32 = x.length + 1 := Nat.mod_eq_of_lt (by unfold maxEntries at hx; omega)
    rw [Nat.mod_eq_of_lt hx, hmod]
    have e : (x ++ w :: z).set x.length (k, a) = (x ++ [(k, a)]) ++ z := by
      rw [List.set_append_right _ _ (Nat.le_refl _)]; simp
    rw [e]
    have hnd : (keys (x ++ [(k, a)])).Nodup := by
      simp only [keys, List.map_append, List.map_cons, List.map_nil]
      rw [List.nodup_append]
      refine ⟨hn, by simp, ?_⟩
      intro c hc d hd
      simp at hd; subst hd
      rintro rfl
      exact hkx hc
    simp only [List.length_append, List.length_cons] at hl
    refine ⟨by simp; omega, ?_⟩
    by_cases hlast : x.length + 1 = maxEntries
    · right
      have : z = [] := List.length_eq_zero_iff.1 (by omega)
      rw [this, List.append_nil]; exact hnd
    · left
      refine ⟨x ++ [(k, a)], z, rfl, by simp, by simp; omega, hnd, ?_, fun p hp => hzz p (by simp [hp])⟩
      simp only [keys, List.map_append, List.mem_append, List.map_cons, List.map_nil, List.mem_singleton, not_or]
      exact ⟨hz, Ne.symm hk0⟩
  · exact ⟨by simpa using hl, Or.inr (nodup_set _ _ hn hk)⟩

/-- The table after a request is the queue after it. -/
theorem turn_queue (t : Table) (r : Recv) (q : Request) (h : request r = some q) (hi : Inv (pairs t) t.next) :
    Inv (pairs (turn t r).1) (turn t r).1.next ∧
    turned (pairs (turn t r).1) (turn t r).1.next = hear (turned (pairs t) t.next) q.own q.sender := by
  obtain ⟨h1, h2, -⟩ := turn_request t r q h
  rw [h1, h2]
  unfold hearT hear
  have hm := turned_mem (pairs t) t.next q.own
  by_cases hk : q.own ∈ keys (pairs t)
  · rw [if_pos hk, if_pos hk, if_pos (hm.2 hk)]
    exact ⟨inv_renew hi _ _, turned_renew hi _ _⟩
  · rw [if_neg hk, if_neg hk, if_neg (fun hc => hk (hm.1 hc))]
    exact ⟨inv_set hi _ _ hk, turned_set hi.1 _⟩

theorem after_queue (rs : List Recv) (t : Table) (hi : Inv (pairs t) t.next) :
    Inv (pairs (after t rs)) (after t rs).next ∧
    turned (pairs (after t rs)) (after t rs).next = queue (turned (pairs t) t.next) (requests rs) := by
  induction rs generalizing t with
  | nil => exact ⟨hi, rfl⟩
  | cons r rs ih =>
    simp only [after]
    cases h : request r with
    | none =>
      rw [turn_other t r h]
      simp only [requests, List.filterMap_cons, h]
      exact ih t hi
    | some q =>
      obtain ⟨h1, h2⟩ := turn_queue t r q h hi
      obtain ⟨h3, h4⟩ := ih _ h1
      refine ⟨h3, ?_⟩
      rw [h4, h2]
      simp only [requests, List.filterMap_cons, h, queue]

theorem start_pairs : pairs start = firstQueue := by
  unfold pairs start firstQueue maxEntries
  rw [List.map_replicate]
  rfl

theorem start_inv : Inv (pairs start) start.next := by
  refine ⟨by rw [pairs_length]; exact List.length_replicate, Or.inl ⟨[], pairs start, rfl, rfl, maxEntries_pos, by simp [keys], by simp [keys], ?_⟩⟩
  intro p hp
  rw [start_pairs] at hp
  rw [(List.mem_replicate.1 hp).2]; rfl

theorem start_turned : turned (pairs start) start.next = firstQueue := by
  rw [← start_pairs]
  show (pairs start).drop (0 % maxEntries) ++ (pairs start).take (0 % maxEntries) = _
  rw [Nat.zero_mod]; simp

theorem queue_append (q : Queue) (a b : List Request) : queue q (a ++ b) = queue (queue q a) b := by
  induction a generalizing q with
  | nil => rfl
  | cons r a ih => exact ih _

theorem after_append (t : Table) (a b : List Recv) : after t (a ++ b) = after (after t a) b := by
  induction a generalizing t with
  | nil => rfl
  | cons r a ih => exact ih _

theorem loop_append (t : Table) (a b : List Recv) : loop t (a ++ b) = loop t a ++ loop (after t a) b := by
  induction a generalizing t with
  | nil => rfl
  | cons r a ih => simp only [List.cons_append, loop, after, ih]

/-- What the server sends in answer to a request. -/
theorem turn_answer (rs : List Recv) (r : Recv) (q : Request) (h : request r = some q) :
    (turn (after start rs) r).2 = [⟨answer (known (queue firstQueue (requests rs ++ [q])) q.wanted), q.sender⟩] := by
  obtain ⟨hi, hq⟩ := after_queue rs start start_inv
  obtain ⟨h1, h2⟩ := turn_queue _ r q h hi
  obtain ⟨-, -, h3⟩ := turn_request (after start rs) r q h
  rw [h3, ← turned_known h1, h2, hq, start_turned, queue_append]
  rfl

/-! ### As long as no place is given up -/

theorem known_mem (q : Queue) (k : PubKey) (hn : (keys q).Nodup) (a : Place) (h : (k, a) ∈ q) : known q k = some a := by
  unfold known
  induction q with
  | nil => simp at h
  | cons p q ih =>
    rw [List.find?_cons]
    simp only [keys, List.map_cons, List.nodup_cons] at hn
    by_cases hk : p.1 = k
    · rcases List.mem_cons.1 h with rfl | h
      · simp
      · exact absurd (List.mem_map_of_mem h) (by rw [hk] at hn; exact hn.1)
    · simp only [hk, decide_false]
      refine ih hn.2 ?_
      rcases List.mem_cons.1 h with rfl | h
      · simp at hk
      · exact h

theorem known_none (q : Queue) (k : PubKey) (h : k ∉ keys q) : known q k = none := by
  have := known_append k q []
  rw [if_neg h, List.append_nil] at this
  rw [this]; rfl

theorem known_renew (q : Queue) (k j : PubKey) (a : Place) (h : k ∈ keys q) :
    known (renew k a q) j = if j = k then some a else known q j := by
  unfold known
  induction q with
  | nil => simp [keys] at h
  | cons p q ih =>
    obtain ⟨c, b⟩ := p
    unfold renew
    by_cases hc : c = k
    · rw [if_pos hc]
      simp only [List.find?_cons]
      by_cases hj : j = k
      · simp [hc, hj]
      · have : ¬ c = j := by rw [hc]; exact Ne.symm hj
        simp [this, hj]
    · rw [if_neg hc]
      simp only [List.find?_cons]
      by_cases hj : c = j
      · have : ¬ j = k := by rw [← hj]; exact hc
        simp [hj, this]
      · simp only [hj, decide_false]
        apply ih
        simpa [keys, Ne.symm hc] using h

/-- The queue as long as there was room: zeros, then every other key that was heard, at its last address. -/
structure Room (q : Queue) (rs : List Request) (x z : Queue) : Prop where
  eq : q = z ++ x
  length : q.length = maxEntries
  zero : ∀ p ∈ z, p.1 = zeroKey
  nodup : (keys x).Nodup
  nonzero : zeroKey ∉ keys x
  last : ∀ k ≠ zeroKey, known x k = lastHeard rs k
  heard : ∀ k ∈ keys x, k ∈ heard rs

theorem lastHeard_snoc (rs : List Request) (r : Request) (k : PubKey) :
    lastHeard (rs ++ [r]) k = if r.own = k then some r.sender else lastHeard rs k := by
  unfold lastHeard
  rw [List.reverse_append, List.reverse_singleton, List.singleton_append, List.find?_cons]
  by_cases h : r.own = k <;> simp [h]

theorem lastHeard_none (rs : List Request) (k : PubKey) : lastHeard rs k = none ↔ k ∉ heard rs := by
  unfold lastHeard heard
  simp only [Option.map_eq_none_iff, List.find?_eq_none, List.mem_reverse, decide_eq_true_eq, List.mem_map, not_exists, not_and]

theorem mem_known (q : Queue) (k : PubKey) (h : k ∈ keys q) : ∃ a, known q k = some a := by
  cases hc : known q k with
  | some a => exact ⟨a, rfl⟩
  | none =>
    unfold known at hc
    simp only [Option.map_eq_none_iff, List.find?_eq_none, decide_eq_true_eq] at hc
    obtain ⟨p, hp, he⟩ := List.mem_map.1 h
    exact absurd he (hc p hp)

theorem room_hear {q : Queue} {rs : List Request} {x z : Queue} (h : Room q rs x z) (r : Request)
    (hb : (heard (rs ++ [r])).dedup.length ≤ maxEntries) : ∃ x' z', Room (hear q r.own r.sender) (rs ++ [r]) x' z' := by
  obtain ⟨rfl, hl, hz, hn, h0, hlast, hh⟩ := h
  unfold hear
  have hrs : ∀ k ∈ heard rs, k ∈ heard (rs ++ [r]) := by
    intro k hk; simp only [heard, List.map_append, List.mem_append]; exact Or.inl hk
  have hr : r.own ∈ heard (rs ++ [r]) := by simp [heard]
  by_cases hm : r.own ∈ keys (z ++ x)
  · rw [if_pos hm, renew_append]
    by_cases hzk : r.own ∈ keys z
    · rw [if_pos hzk]
      have hown : r.own = zeroKey := by
        obtain ⟨p, hp, he⟩ := List.mem_map.1 hzk
        rw [← he]; exact hz p hp
      refine ⟨x, renew r.own r.sender z, rfl, ?_, ?_, hn, h0, ?_, fun k hk => hrs k (hh k hk)⟩
      · simp only [List.length_append, renew_length] at hl ⊢; exact hl
      · intro p hp
        have : p.1 ∈ keys (renew r.own r.sender z) := List.mem_map_of_mem hp
        rw [renew_keys] at this
        obtain ⟨p', hp', he⟩ := List.mem_map.1 this
        rw [← he]; exact hz p' hp'
      · intro k hk
        rw [lastHeard_snoc, if_neg (by rw [hown]; exact Ne.symm hk)]
        exact hlast k hk
    · rw [if_neg hzk]
      have hx : r.own ∈ keys x := by
        simp only [keys, List.map_append, List.mem_append] at hm hzk ⊢
        exact hm.resolve_left hzk
      refine ⟨renew r.own r.sender x, z, rfl, ?_, hz, by rw [renew_keys]; exact hn, by rw [renew_keys]; exact h0, ?_, ?_⟩
      · simp only [List.length_append, renew_length] at hl ⊢; exact hl
      · intro k hk
        rw [known_renew _ _ _ _ hx, lastHeard_snoc]
        by_cases hc : k = r.own
        · rw [if_pos hc, if_pos hc.symm]
        · rw [if_neg hc, if_neg (Ne.symm hc)]; exact hlast k hk
      · intro k hk; rw [renew_keys] at hk; exact hrs k (hh k hk)
  · rw [if_neg hm]
    have hmx : r.own ∉ keys x := fun hc => hm (by simp only [keys, List.map_append, List.mem_append]; exact Or.inr hc)
    have hzne : z ≠ [] := by
      rintro rfl
      have hsub : (r.own :: keys x) ⊆ (heard (rs ++ [r])).dedup := by
        intro k hk
        rw [List.mem_dedup]
        rcases List.mem_cons.1 hk with rfl | hk
        · exact hr
        · exact hrs k (hh k hk)
      have hnd : (r.own :: keys x).Nodup := List.nodup_cons.2 ⟨hmx, hn⟩
      have := (hnd.subperm hsub).length_le
      simp [keys] at this hl
      omega
    obtain ⟨w, z, rfl⟩ := List.exists_cons_of_ne_nil hzne
    have hk0 : r.own ≠ zeroKey := by
      intro hc
      apply hm
      rw [hc]
      simp [keys, hz w (by simp)]
    refine ⟨x ++ [(r.own, r.sender)], z, by simp, ?_, fun p hp => hz p (by simp [hp]), ?_, ?_, ?_, ?_⟩
    · simp only [List.cons_append, List.length_cons, List.length_append] at hl
      simp; omega
    · simp only [keys, List.map_append, List.map_cons, List.map_nil]
      rw [List.nodup_append]
      refine ⟨hn, by simp, ?_⟩
      intro c hc d hd
      simp at hd; subst hd
      rintro rfl
      exact hmx hc
    · simp only [keys, List.map_append, List.mem_append, List.map_cons, List.map_nil, List.mem_singleton, not_or]
      exact ⟨h0, Ne.symm hk0⟩
    · intro k hk
      rw [known_append, lastHeard_snoc]
      by_cases hc : r.own = k
      · rw [if_pos hc, if_neg (by rw [← hc]; exact hmx)]
        simp [known, hc]
      · rw [if_neg hc, ← hlast k hk]
        by_cases hkx : k ∈ keys x
        · rw [if_pos hkx]
        · rw [if_neg hkx, known_none x k hkx]
          simp [known, hc]
    · intro k hk
      simp only [keys, List.map_append, List.mem_append, List.map_cons, List.map_nil, List.mem_singleton] at hk
      rcases hk with hk | rfl
      · exact hrs k (hh k hk)
      · exact hr

theorem dedup_length_le {a b : List PubKey} (h : a ⊆ b) : a.dedup.length ≤ b.dedup.length :=
  (List.Nodup.subperm (List.nodup_dedup a) (fun _ hk => List.mem_dedup.2 (h (List.mem_dedup.1 hk)))).length_le

theorem room_queue (rs : List Request) (hb : (heard rs).dedup.length ≤ maxEntries) :
    ∃ x z, Room (queue firstQueue rs) rs x z := by
  induction rs using List.reverseRecOn with
  | nil =>
    refine ⟨[], firstQueue, (List.append_nil _).symm, List.length_replicate, ?_, by simp [keys], by simp [keys], ?_, by simp [keys]⟩
    · intro p hp; rw [(List.mem_replicate.1 hp).2]; rfl
    · intro k _; rfl
  | append_singleton rs r ih =>
    have : (heard rs).dedup.length ≤ maxEntries :=
      Nat.le_trans (dedup_length_le (by intro k hk; simp only [heard, List.map_append, List.mem_append]; exact Or.inl hk)) hb
    obtain ⟨x, z, h⟩ := ih this
    rw [queue_append]
    exact room_hear h r hb

theorem room_known {q : Queue} {rs : List Request} {x z : Queue} (h : Room q rs x z) (k : PubKey) (hk : k ≠ zeroKey) :
    known q k = lastHeard rs k := by
  rw [h.eq, known_append, if_neg, h.last k hk]
  intro hc
  obtain ⟨p, hp, he⟩ := List.mem_map.1 hc
  exact hk (by rw [← he]; exact h.zero p hp)

/-! ### Forgetting -/

theorem hear_keys_subset (q : Queue) (k : PubKey) (a : Place) (j : PubKey) (h : j ∈ keys (hear q k a)) : j ∈ keys q ∨ j = k := by
  unfold hear at h
  by_cases hm : k ∈ q.map Prod.fst
  · rw [if_pos hm, renew_keys] at h; exact Or.inl h
  · rw [if_neg hm] at h
    simp only [keys, List.map_append, List.mem_append, List.map_cons, List.map_nil, List.mem_singleton] at h
    rcases h with h | h
    · left
      obtain ⟨p, hp, he⟩ := List.mem_map.1 h
      exact List.mem_map.2 ⟨p, List.mem_of_mem_drop hp, he⟩
    · exact Or.inr h

theorem queue_keys_subset (rs : List Request) (q : Queue) (j : PubKey) (h : j ∈ keys (queue q rs)) : j ∈ keys q ∨ j ∈ heard rs := by
  induction rs generalizing q with
  | nil => exact Or.inl h
  | cons r rs ih =>
    rcases ih _ h with h | h
    · rcases hear_keys_subset _ _ _ _ h with h | h
      · exact Or.inl h
      · right; simp [heard, h]
    · right; simp only [heard, List.map_cons, List.mem_cons]; exact Or.inr h

/-- As many new keys as requests: the queue moves on by that many places. -/
theorem queue_fresh (rs : List Request) (q : Queue) (hn : (heard rs).Nodup) (hf : ∀ k ∈ heard rs, k ∉ keys q) (hl : rs.length ≤ q.length) :
    queue q rs = q.drop rs.length ++ rs.map fun r => (r.own, r.sender) := by
  induction rs using List.reverseRecOn with
  | nil => simp [queue]
  | append_singleton rs r ih =>
    simp only [heard, List.map_append, List.map_cons, List.map_nil] at hn hf
    rw [List.nodup_append] at hn
    have hl' : rs.length + 1 ≤ q.length := by simpa using hl
    rw [queue_append, ih hn.1 (fun k hk => hf k (List.mem_append.2 (Or.inl hk))) (by omega)]
    show hear _ r.own r.sender = _
    unfold hear
    rw [if_neg]
    · rw [List.drop_append_of_le_length (by rw [List.length_drop]; omega), List.drop_drop]
      simp
    · intro hc
      simp only [List.map_append, List.mem_append, List.map_map] at hc
      rcases hc with hc | hc
      · obtain ⟨p, hp, he⟩ := List.mem_map.1 hc
        exact hf r.own (by simp) (List.mem_map.2 ⟨p, List.mem_of_mem_drop hp, he⟩)
      · exact hn.2.2 r.own (by simpa [heard] using hc) r.own (by simp) rfl

theorem firstQueue_length : firstQueue.length = maxEntries := List.length_replicate

theorem hear_length (q : Queue) (k : PubKey) (a : Place) (h : q ≠ []) : (hear q k a).length = q.length := by
  unfold hear
  by_cases hm : k ∈ q.map Prod.fst
  · rw [if_pos hm, renew_length]
  · rw [if_neg hm]
    have := List.length_pos_of_ne_nil h
    simp; omega

theorem queue_length (rs : List Request) (q : Queue) (h : q ≠ []) : (queue q rs).length = q.length := by
  induction rs generalizing q with
  | nil => rfl
  | cons r rs ih =>
    have h2 := hear_length q r.own r.sender h
    show (queue (hear q r.own r.sender) rs).length = _
    rw [ih _ (by intro hc; rw [hc] at h2; exact h (List.length_eq_zero_iff.1 h2.symm)), h2]

end WG.Punch
