import Verif.Proof.Command
import Verif.Spec.Driver
namespace WG
open Spec

/-! ### memcmp and the sort order -/

theorem memcmp_self (a : List UInt8) : memcmp a a = 0 := by
  induction a with
  | nil => rfl
  | cons x t ih => simp [memcmp, ih]

theorem memcmp_neg (a b : List UInt8) : memcmp b a = - memcmp a b := by
  induction a generalizing b with
  | nil => cases b <;> simp [memcmp]
  | cons x t ih =>
    cases b with
    | nil => simp [memcmp]
    | cons y u =>
      simp only [memcmp]
      by_cases h1 : x < y
      · have h2 : ¬ y < x := by rw [UInt8.lt_iff_toNat_lt] at *; omega
        simp [h1, h2]
      · by_cases h2 : y < x
        · simp [h1, h2]
        · simp [h1, h2, ih]

theorem memcmp_zero (a b : List UInt8) (h : a.length = b.length) : memcmp a b = 0 ↔ a = b := by
  induction a generalizing b with
  | nil => cases b with | nil => simp [memcmp] | cons => simp at h
  | cons x t ih =>
    cases b with
    | nil => simp at h
    | cons y u =>
      simp only [memcmp]
      by_cases h1 : x < y
      · simp only [h1, if_true]
        constructor
        · intro h; cases h
        · intro h; simp only [List.cons.injEq] at h; rw [h.1, UInt8.lt_iff_toNat_lt] at h1; omega
      · by_cases h2 : y < x
        · simp only [h1, h2, if_true, if_false]
          constructor
          · intro h; cases h
          · intro h; simp only [List.cons.injEq] at h; rw [h.1, UInt8.lt_iff_toNat_lt] at h2; omega
        · simp only [h1, h2, if_false, ih u (by simpa using h), List.cons.injEq]
          have : x = y := by
            rw [UInt8.lt_iff_toNat_lt] at h1 h2
            exact UInt8.toNat_inj.1 (by omega)
          simp [this]

theorem memcmp_key_zero (a b : Key) : memcmp a.toList b.toList = 0 ↔ a = b := by
  rw [memcmp_zero _ _ (by simp), Vector.toList_inj]

/-- The order in which `qsort` arranges the entries. -/
def Sorted (l : List PubkeyOrigin) : Prop := l.Pairwise fun a b => pubkeyCmp a b ≤ 0

/-- `qsort` with `pubkey_cmp`: some rearrangement in that order. -/
def IsSort (sort : List PubkeyOrigin → List PubkeyOrigin) : Prop := ∀ l, (sort l).Perm l ∧ Sorted (sort l)

theorem cmp_le_key {a b : PubkeyOrigin} (h : pubkeyCmp a b ≤ 0) : memcmp a.pubkey.toList b.pubkey.toList ≤ 0 := by
  simp only [pubkeyCmp] at h
  split at h
  · exact h
  · rename_i h0; simp only [ne_eq, Decidable.not_not] at h0; omega

theorem cmp_true_false {k : Key} : ¬ pubkeyCmp ⟨k, true⟩ ⟨k, false⟩ ≤ 0 := by
  simp [pubkeyCmp, memcmp_self]

theorem removals_sub (l : List PubkeyOrigin) (k : Key) (h : k ∈ removals l) : (⟨k, false⟩ : PubkeyOrigin) ∈ l := by
  fun_induction removals l with
  | case1 => simp at h
  | case2 a hf => simp at h
  | case3 a hf => cases a; simp_all
  | case4 a b r hf ih => exact List.mem_cons_of_mem _ (ih h)
  | case5 a b r hf hc ih =>
    rcases List.mem_cons.1 h with rfl | h
    · cases a; simp_all
    · exact List.mem_cons_of_mem _ (ih h)
  | case6 a b r hf hc ih => exact List.mem_cons_of_mem _ (ih h)

/-- After the head with key `k` comes an entry with another key: `k` does not occur again. -/
theorem sorted_gap {a b : PubkeyOrigin} {r : List PubkeyOrigin} (h : Sorted (a :: b :: r)) (hk : a.pubkey ≠ b.pubkey) :
    ∀ c ∈ b :: r, c.pubkey ≠ a.pubkey := by
  intro c hc he
  simp only [Sorted, List.pairwise_cons, List.mem_cons] at h
  have h1 := cmp_le_key (h.1 b (.inl rfl))
  have hne : memcmp a.pubkey.toList b.pubkey.toList ≠ 0 := by rw [ne_eq, memcmp_key_zero]; exact hk
  rcases List.mem_cons.1 hc with rfl | hc
  · exact hk he.symm
  · have h2 := cmp_le_key (h.2.1 c hc)
    rw [he, memcmp_neg] at h2
    omega

theorem removals_complete (l : List PubkeyOrigin) (hs : Sorted l) (k : Key) (h : (⟨k, false⟩ : PubkeyOrigin) ∈ l)
    (hn : (⟨k, true⟩ : PubkeyOrigin) ∉ l) : k ∈ removals l := by
  fun_induction removals l with
  | case1 => simp at h
  | case2 a hf => simp only [List.mem_singleton] at h; subst h; simp at hf
  | case3 a hf => simp only [List.mem_singleton] at h; subst h; simp
  | case4 a b r hf ih =>
    rcases List.mem_cons.1 h with rfl | h
    · simp at hf
    · exact ih (List.pairwise_cons.1 hs).2 h (fun h' => hn (List.mem_cons_of_mem _ h'))
  | case5 a b r hf hc ih =>
    rcases List.mem_cons.1 h with rfl | h
    · simp
    · exact List.mem_cons_of_mem _ (ih (List.pairwise_cons.1 hs).2 h (fun h' => hn (List.mem_cons_of_mem _ h')))
  | case6 a b r hf hc ih =>
    rcases List.mem_cons.1 h with rfl | h
    · exfalso
      simp only [Bool.or_eq_true, Bool.not_eq_true', ne_eq, decide_eq_true_eq, not_or, Bool.not_eq_false, Decidable.not_not, memcmp_key_zero] at hc
      apply hn
      obtain ⟨h1, h2⟩ := hc
      cases b; simp_all
    · exact ih (List.pairwise_cons.1 hs).2 h (fun h' => hn (List.mem_cons_of_mem _ h'))

/-- Runtime keys, in array order. -/
def runtimeKeys (l : List PubkeyOrigin) : List Key := (l.filter (!·.fromFile)).map (·.pubkey)

theorem removals_exact (l : List PubkeyOrigin) (hs : Sorted l) (hd : (runtimeKeys l).Nodup) (k : Key) (h : k ∈ removals l) :
    (⟨k, true⟩ : PubkeyOrigin) ∉ l := by
  fun_induction removals l with
  | case1 => simp at h
  | case2 a hf => simp at h
  | case3 a hf =>
    simp only [List.mem_singleton] at h; subst h
    intro h'; simp only [List.mem_singleton] at h'; rw [← h'] at hf; simp at hf
  | case4 a b r hf ih =>
    have hd' : (runtimeKeys (b :: r)).Nodup := by simpa [runtimeKeys, hf] using hd
    intro h'
    rcases List.mem_cons.1 h' with h'' | h''
    · -- k comes from the tail although its file entry is the head
      have hm := removals_sub _ _ h
      simp only [Sorted, List.pairwise_cons] at hs
      have := hs.1 _ hm
      rw [← h''] at this
      exact cmp_true_false this
    · exact ih (List.pairwise_cons.1 hs).2 hd' h h''
  | case5 a b r hf hc ih =>
    have hf' : a.fromFile = false := by simpa using hf
    have hd0 : a.pubkey ∉ runtimeKeys (b :: r) ∧ (runtimeKeys (b :: r)).Nodup := by
      simpa [runtimeKeys, hf'] using hd
    have hk : b.fromFile = true → a.pubkey ≠ b.pubkey := by
      intro hb he
      simp only [Bool.or_eq_true, Bool.not_eq_true', ne_eq, decide_eq_true_eq, memcmp_key_zero] at hc
      rcases hc with hc | hc
      · rw [hb] at hc; cases hc
      · exact hc he
    have hgap : a.pubkey ≠ b.pubkey := by
      cases hb : b.fromFile with
      | true => exact hk hb
      | false =>
        intro he
        apply hd0.1
        simp only [runtimeKeys, List.mem_map, List.mem_filter]
        exact ⟨b, ⟨by simp, by simp [hb]⟩, he.symm⟩
    have G := sorted_gap hs hgap
    rcases List.mem_cons.1 h with rfl | h
    · intro h'
      rcases List.mem_cons.1 h' with h'' | h''
      · rw [← h''] at hf'; simp at hf'
      · exact G _ h'' rfl
    · intro h'
      rcases List.mem_cons.1 h' with h'' | h''
      · rw [← h''] at hf'; simp at hf'
      · exact ih (List.pairwise_cons.1 hs).2 hd0.2 h h''
  | case6 a b r hf hc ih =>
    have hf' : a.fromFile = false := by simpa using hf
    have hd0 : a.pubkey ∉ runtimeKeys (b :: r) ∧ (runtimeKeys (b :: r)).Nodup := by
      simpa [runtimeKeys, hf'] using hd
    intro h'
    rcases List.mem_cons.1 h' with h'' | h''
    · rw [← h''] at hf'; simp at hf'
    · exact ih (List.pairwise_cons.1 hs).2 hd0.2 h h''

theorem removals_sublist (l : List PubkeyOrigin) : (removals l).Sublist (runtimeKeys l) := by
  fun_induction removals l with
  | case1 => simp
  | case2 a hf => simp
  | case3 a hf => simp [runtimeKeys, hf]
  | case4 a b r hf ih => simpa [runtimeKeys, hf] using ih
  | case5 a b r hf hc ih => 
    have hf' : a.fromFile = false := by simpa using hf
    have : runtimeKeys (a :: b :: r) = a.pubkey :: runtimeKeys (b :: r) := by simp [runtimeKeys, hf']
    rw [this]; exact ih.cons_cons _
  | case6 a b r hf hc ih =>
    have hf' : a.fromFile = false := by simpa using hf
    have : runtimeKeys (a :: b :: r) = a.pubkey :: runtimeKeys (b :: r) := by simp [runtimeKeys, hf']
    rw [this]; exact ih.cons _

/-! ### Removal entries -/

/-- A removal entry. -/
def removalEntry (k : Key) : Peer := { publicKey := k, flags := { removeMe := true } }

theorem pushRemovals_eq (ks : List Key) (peers : List Peer) : pushRemovals ks peers = (ks.map removalEntry).reverse ++ peers := by
  induction ks generalizing peers with
  | nil => rfl
  | cons k ks ih =>
    simp only [pushRemovals, List.foldl_cons] at *
    rw [ih]; simp [removalEntry]

/-- Keys of the peers of a device. -/
def peerKeys (d : Device) : List Key := d.peers.map (·.publicKey)

theorem origins_true (file runtime : Device) (k : Key) : (⟨k, true⟩ : PubkeyOrigin) ∈ origins file runtime ↔ k ∈ peerKeys file := by
  simp [origins, peerKeys]
theorem origins_false (file runtime : Device) (k : Key) : (⟨k, false⟩ : PubkeyOrigin) ∈ origins file runtime ↔ k ∈ peerKeys runtime := by
  simp [origins, peerKeys]
theorem runtimeKeys_origins (file runtime : Device) : runtimeKeys (origins file runtime) = peerKeys runtime := by
  simp [runtimeKeys, origins, peerKeys, List.filter_map, Function.comp_def]

theorem runtimeKeys_perm {a b : List PubkeyOrigin} (h : a.Perm b) : (runtimeKeys a).Perm (runtimeKeys b) :=
  (h.filter _).map _

section
variable {sort : List PubkeyOrigin → List PubkeyOrigin} (hs : IsSort sort) (file runtime : Device)
include hs

theorem sync_removals_mem (k : Key) (h : k ∈ removals (sort (origins file runtime))) : k ∈ peerKeys runtime :=
  (origins_false file runtime k).1 ((hs _).1.mem_iff.1 (removals_sub _ _ h))

theorem sync_removals_complete (k : Key) (h : k ∈ peerKeys runtime) (hn : k ∉ peerKeys file) :
    k ∈ removals (sort (origins file runtime)) :=
  removals_complete _ (hs _).2 k ((hs _).1.mem_iff.2 ((origins_false file runtime k).2 h))
    (fun h' => hn ((origins_true file runtime k).1 ((hs _).1.mem_iff.1 h')))

theorem sync_removals_exact (hd : (peerKeys runtime).Nodup) (k : Key) (h : k ∈ removals (sort (origins file runtime))) :
    k ∉ peerKeys file := by
  intro h'
  refine removals_exact _ (hs _).2 ?_ k h ((hs _).1.mem_iff.2 ((origins_true file runtime k).2 h'))
  rw [(runtimeKeys_perm (hs _).1).nodup_iff, runtimeKeys_origins]; exact hd

theorem sync_removals_nodup (hd : (peerKeys runtime).Nodup) : (removals (sort (origins file runtime))).Nodup := by
  refine List.Nodup.sublist (removals_sublist _) ?_
  rw [(runtimeKeys_perm (hs _).1).nodup_iff, runtimeKeys_origins]; exact hd
end

/-! ### Effect on the interface -/

/-- The request for one peer of a device. -/
def peerReqOf (p : Peer) : PeerReq :=
  { key := p.publicKey, remove := p.flags.removeMe, replaceIPs := p.flags.replaceAllowedIPs
    psk := if p.flags.hasPresharedKey then some p.presharedKey else none
    endpoint := if p.endpoint = .unset then none else some p.endpoint
    keepalive := if p.flags.hasKeepalive then some p.keepalive else none
    ips := p.allowedIPs }

theorem requestOf_peers (d : Device) : (requestOf d).peers = d.peers.map peerReqOf := rfl

theorem foldl_giveIP (k : Key) (l : List AllowedIP) (o : AllowedIP → Option Key) (n : AllowedIP) :
    l.foldl (giveIP k) o n = if n ∈ l.map network then some k else o n := by
  induction l generalizing o with
  | nil => simp
  | cons a l ih =>
    simp only [List.foldl_cons, ih, List.map_cons, List.mem_cons, giveIP]
    by_cases h1 : n ∈ l.map network
    · simp [h1]
    · by_cases h2 : n = network a <;> simp [h1, h2]

/-- The interface after the removal entries. -/
theorem fold_removals (ks : List Key) (s : Iface) :
    ((ks.map removalEntry).map peerReqOf).foldl applyPeerReq s =
      { s with peers := fun k => if k ∈ ks then none else s.peers k
               owner := fun n => if ∃ k ∈ ks, s.owner n = some k then none else s.owner n } := by
  induction ks generalizing s with
  | nil => simp
  | cons k ks ih =>
    simp only [List.map_cons, List.foldl_cons, ih]
    simp only [applyPeerReq, peerReqOf, removalEntry, if_true]
    congr 1
    · funext x
      by_cases h1 : x ∈ ks
      · simp [h1]
      · by_cases h2 : x = k <;> simp [h1, h2]
    · funext n
      simp only [dropOwner]
      by_cases h1 : s.owner n = some k
      · simp [h1]
      · simp only [h1, if_false, List.mem_cons]
        congr 1
        apply propext
        constructor
        · rintro ⟨x, hx, he⟩; exact ⟨x, List.mem_cons_of_mem _ hx, he⟩
        · rintro ⟨x, hx, he⟩
          rcases List.mem_cons.1 hx with rfl | hx
          · exact absurd he h1
          · exact ⟨x, hx, he⟩

theorem applyPeerReq_some (s : Iface) (p : Peer) (hr : p.flags.removeMe = false) (k : Key) :
    ((applyPeerReq s (peerReqOf p)).peers k).isSome = true ↔ (s.peers k).isSome = true ∨ k = p.publicKey := by
  simp only [applyPeerReq, peerReqOf, hr, Bool.false_eq_true, if_false]
  by_cases h : k = p.publicKey <;> simp [h]

theorem fold_some (ps : List Peer) (s : Iface) (hr : ∀ p ∈ ps, p.flags.removeMe = false) (k : Key) :
    (((ps.map peerReqOf).foldl applyPeerReq s).peers k).isSome = true ↔ (s.peers k).isSome = true ∨ k ∈ ps.map (·.publicKey) := by
  induction ps generalizing s with
  | nil => simp
  | cons p ps ih =>
    simp only [List.map_cons, List.foldl_cons, List.mem_cons]
    rw [ih _ (fun q hq => hr q (by simp [hq])), applyPeerReq_some _ _ (hr p (by simp))]
    tauto

/-! ### The command -/

/-- What `syncconf` sends, given what the file says. -/
theorem syncconf_sends (env : Env) (sort : List PubkeyOrigin → List PubkeyOrigin) (ipc : Ipc) (iface path : CStr) (d : Device)
    (h : .set d ∈ (setconfMain env sort ipc [b!"syncconf", iface, path]).calls) :
    ∃ d0, readConfigFile env false path = .ok d0 ∧
      ((d0.peers = [] ∧ d = { d0 with name := iface.take 15 }) ∨
       ∃ rt, d0.peers ≠ [] ∧ ipc.get (iface.take 15) = (0, some rt) ∧
        ((rt.peers = [] ∧ d = { d0 with name := iface.take 15 }) ∨
         (rt.peers ≠ [] ∧ d = syncPeers sort { d0 with name := iface.take 15 } rt))) := by
  have e : (decide (b!"syncconf" = b!"addconf")) = false := by decide
  simp only [setconfMain, e] at h
  cases hr : readConfigFile env false path with
  | ok d0 =>
    refine ⟨d0, rfl, ?_⟩
    simp only [hr, if_true, syncConf, copyName] at h
    by_cases h0 : d0.peers = []
    · simp only [h0, if_true, sendDevice_eq, List.nil_append, List.mem_singleton, IpcCall.set.injEq] at h
      rw [h0]; exact .inl ⟨rfl, h⟩
    · simp only [if_neg h0] at h
      refine .inr ?_
      split at h
      · rename_i dd calls hx
        split at hx
        · rename_i rt hg
          refine ⟨rt, h0, hg, ?_⟩
          split at hx
          · rename_i hrt
            cases hx
            simp only [sendDevice_eq, List.mem_append, List.mem_singleton, reduceCtorEq, false_or, IpcCall.set.injEq] at h
            exact .inl ⟨hrt, h⟩
          · rename_i hrt
            cases hx
            simp only [sendDevice_eq, List.mem_append, List.mem_singleton, reduceCtorEq, false_or, IpcCall.set.injEq] at h
            exact .inr ⟨hrt, h⟩
        · cases hx
        · cases hx
      · rename_i calls hx
        split at hx
        · split at hx <;> cases hx
        · cases hx; simp at h
        · cases hx
      · rename_i r calls hx1 hx2 hx
        split at hx
        · split at hx <;> (cases hx; simp_all)
        · cases hx; simp at h
        · cases hx; simp at h
  | _ => simp [hr] at h

/-- The state of the interface agrees with what was read from it. -/
def Agrees (s : Iface) (rt : Device) : Prop := ∀ k, (s.peers k).isSome = true ↔ k ∈ peerKeys rt

theorem applyReq_sync (sort : List PubkeyOrigin → List PubkeyOrigin) (file rt : Device) (s : Iface) :
    applyReq s (requestOf (syncPeers sort file rt)) =
      (file.peers.map peerReqOf).foldl applyPeerReq
        (((removals (sort (origins file rt))).reverse.map removalEntry |>.map peerReqOf).foldl applyPeerReq
          (applyDevReq s (requestOf (syncPeers sort file rt)))) := by
  rw [applyReq, requestOf_peers]
  simp only [syncPeers, pushRemovals_eq, List.map_append, List.foldl_append, List.map_reverse]

theorem sync_final_peers {sort : List PubkeyOrigin → List PubkeyOrigin} (hs : IsSort sort) (file rt : Device) (s : Iface)
    (ha : Agrees s rt) (hr : ∀ p ∈ file.peers, p.flags.removeMe = false) (k : Key) :
    ((applyReq s (requestOf (syncPeers sort file rt))).peers k).isSome = true ↔ k ∈ peerKeys file := by
  rw [applyReq_sync, fold_removals, fold_some _ _ hr]
  simp only [applyDevReq, syncPeers, requestOf, Bool.false_eq_true, if_false, List.mem_reverse]
  constructor
  · rintro (h | h)
    · split at h
      · simp at h
      · rename_i hk
        by_contra hn
        exact hk (sync_removals_complete hs file rt k ((ha k).1 h) hn)
    · exact h
  · exact .inr

theorem plain_final_peers (file : Device) (s : Iface) (hp : file.flags.replacePeers = true)
    (hr : ∀ p ∈ file.peers, p.flags.removeMe = false) (k : Key) :
    ((applyReq s (requestOf file)).peers k).isSome = true ↔ k ∈ peerKeys file := by
  rw [applyReq, requestOf_peers, fold_some _ _ hr]
  simp [applyDevReq, requestOf, hp, peerKeys]

/-- Two interface states during the same sequence of peer updates: equal owners, except for stale entries of peers
still to come. -/
def OwnersUpTo (rest : List Peer) (a b : Iface) : Prop :=
  ∀ n, a.owner n = b.owner n ∨ (b.owner n = none ∧ ∃ p ∈ rest, a.owner n = some p.publicKey)

theorem owners_converge (rest : List Peer) (a b : Iface) (hr : ∀ p ∈ rest, p.flags.removeMe = false ∧ p.flags.replaceAllowedIPs = true)
    (h : OwnersUpTo rest a b) : ((rest.map peerReqOf).foldl applyPeerReq a).owner = ((rest.map peerReqOf).foldl applyPeerReq b).owner := by
  induction rest generalizing a b with
  | nil => funext n; rcases h n with h | ⟨-, p, hp, -⟩; · exact h
           simp at hp
  | cons p rest ih =>
    simp only [List.map_cons, List.foldl_cons]
    refine ih _ _ (fun q hq => hr q (by simp [hq])) ?_
    intro n
    have ⟨hr1, hr2⟩ := hr p (by simp)
    simp only [applyPeerReq, peerReqOf, hr1, hr2, Bool.false_eq_true, if_false, if_true, foldl_giveIP, dropOwner]
    by_cases hn : n ∈ p.allowedIPs.map network
    · simp [hn]
    · simp only [hn, if_false]
      rcases h n with h | ⟨hb, q, hq, ha⟩
      · rw [h]; exact .inl rfl
      · rw [hb, ha]
        by_cases hqp : q.publicKey = p.publicKey
        · simp [hqp]
        · right
          simp only [Option.some.injEq, hqp, if_false, reduceCtorEq, true_and]
          rcases List.mem_cons.1 hq with rfl | hq
          · exact absurd rfl hqp
          · exact ⟨q, hq, rfl⟩

/-- A value given by a later update of the same peer wins over the different starting values. -/
theorem field_converge {α : Type} (get : PeerState → α) (req : PeerReq → Option α)
    (hget : ∀ (s : Iface) (r : PeerReq), r.remove = false → ((applyPeerReq s r).peers r.key).map get = some ((req r).getD (get ((s.peers r.key).getD {}))))
    (k : Key) (rs : List PeerReq) (a b : Iface) (hr : ∀ r ∈ rs, r.remove = false)
    (h : (∃ r ∈ rs, r.key = k ∧ (req r).isSome = true) ∨ (a.peers k).map get = (b.peers k).map get ∧ get ((a.peers k).getD {}) = get ((b.peers k).getD {})) :
    ((rs.foldl applyPeerReq a).peers k).map get = ((rs.foldl applyPeerReq b).peers k).map get := by
  induction rs generalizing a b with
  | nil => rcases h with ⟨r, hr, -⟩ | h; · simp at hr
           exact h.1
  | cons r rs ih =>
    simp only [List.foldl_cons]
    apply ih _ _ (fun q hq => hr q (by simp [hq]))
    by_cases hlater : ∃ r ∈ rs, r.key = k ∧ (req r).isSome = true
    · exact .inl hlater
    right
    have hrr := hr r (by simp)
    have key : ((applyPeerReq a r).peers k).map get = ((applyPeerReq b r).peers k).map get ∧
        (k = r.key → ((applyPeerReq a r).peers k).isSome = true ∧ ((applyPeerReq b r).peers k).isSome = true) ∧
        (k ≠ r.key → (applyPeerReq a r).peers k = a.peers k ∧ (applyPeerReq b r).peers k = b.peers k) := by
      have hne : k ≠ r.key → (applyPeerReq a r).peers k = a.peers k ∧ (applyPeerReq b r).peers k = b.peers k := by
        intro hk; simp [applyPeerReq, hrr, hk]
      refine ⟨?_, ?_, hne⟩
      · by_cases hk : k = r.key
        · subst hk
          rw [hget a r hrr, hget b r hrr]
          cases hq : req r with
          | some v => rfl
          | none =>
            rcases h with ⟨q, hqm, hqk, hqs⟩ | h
            · rcases List.mem_cons.1 hqm with rfl | hqm
              · rw [hq] at hqs; simp at hqs
              · exact absurd ⟨q, hqm, hqk, hqs⟩ hlater
            · simp [h.2]
        · rw [(hne hk).1, (hne hk).2]
          rcases h with ⟨q, hqm, hqk, hqs⟩ | h
          · rcases List.mem_cons.1 hqm with rfl | hqm
            · exact absurd hqk.symm hk
            · exact absurd ⟨q, hqm, hqk, hqs⟩ hlater
          · exact h.1
      · rintro rfl; simp [applyPeerReq, hrr]
    refine ⟨key.1, ?_⟩
    by_cases hk : k = r.key
    · obtain ⟨h1, h2⟩ := key.2.1 hk
      obtain ⟨x, hx⟩ := Option.isSome_iff_exists.1 h1
      obtain ⟨y, hy⟩ := Option.isSome_iff_exists.1 h2
      have := key.1
      rw [hx, hy] at this ⊢
      simpa using this
    · rw [(key.2.2 hk).1, (key.2.2 hk).2]
      rcases h with ⟨q, hqm, hqk, hqs⟩ | h
      · rcases List.mem_cons.1 hqm with rfl | hqm
        · exact absurd hqk.symm hk
        · exact absurd ⟨q, hqm, hqk, hqs⟩ hlater
      · exact h.2

end WG
