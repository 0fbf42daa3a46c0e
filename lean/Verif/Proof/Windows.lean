import Verif.Model.IpcWindows
import Verif.Spec.Windows
import Verif.Proof.OpenbsdGet
/-! Proofs about the Windows interface: setting (C69). -/
namespace WG.Win
open Obsd (put field_put_same field_put_ne put_length field_length leBytes leBytes_length le_eq leNat_leBytes field_zeros store_mid store_mid0 rdBytes_mid rdNum_mid orB orAt_mid orIf_mid
  storeFlagged storeFlagged_mid putIf_length orB_length field_putIf_ne field_putIf_same field_orB_ne number_orB_same field_append_left number_append_left okb put_length' putIf_length' orB_length'
  orIf_mid0 storeFlagged_mid0 key_length field_field bePort_eq addrBytes orIf)
open Spec hiding addrBytes readSockaddr
open Spec.Obsd (field number flagged)
open Spec.Win

/-! ### Setting -/

def aipBlock (a : AllowedIP) : List UInt8 :=
  put (put (put (List.replicate 24 0) 16 (leBytes 2 (famNum a.addr))) 18 [a.cidr]) 0 (addrBytes a.addr)

theorem addrBytes_le (a : Addr) : 0 + (addrBytes a).length ≤ 16 := by cases a <;> simp [addrBytes]

theorem aip_lengths (a : AllowedIP) : (put (List.replicate 24 0) 16 (leBytes 2 (famNum a.addr)) : List UInt8).length = 24 ∧
    (put (put (List.replicate 24 0) 16 (leBytes 2 (famNum a.addr))) 18 [a.cidr] : List UInt8).length = 24 := by
  have e1 : (put (List.replicate 24 0) 16 (leBytes 2 (famNum a.addr)) : List UInt8).length = 24 := by rw [put_length] <;> simp [leBytes_length]
  exact ⟨e1, by rw [put_length, e1]; rw [e1]; simp⟩

theorem aipBlock_length (a : AllowedIP) : (aipBlock a).length = 24 := by
  have h := addrBytes_le a.addr
  have e := aip_lengths a
  rw [aipBlock, put_length, e.2]
  rw [e.2]; omega

theorem setAip_mid (pre post : List UInt8) (a : AllowedIP) :
    setAip (pre ++ List.replicate 24 0 ++ post) pre.length a = .ok (pre ++ aipBlock a ++ post) := by
  have h := addrBytes_le a.addr
  have e := aip_lengths a
  unfold setAip
  rw [store_mid _ _ _ _ _ (by simp [leBytes_length]), okb, store_mid _ _ _ _ _ (by rw [e.1]; simp), okb, store_mid0 _ _ _ _ (by rw [e.2]; omega)]
  rfl

theorem setAips_mid (l : List AllowedIP) : ∀ (pre post : List UInt8) (n : Nat),
    setAips (pre ++ List.replicate (24 * l.length) 0 ++ post) pre.length n l = .ok (pre ++ l.flatMap aipBlock ++ post, pre.length + 24 * l.length, n + l.length) := by
  induction l with
  | nil => intro pre post n; simp [setAips]
  | cons a l ih =>
    intro pre post n
    have e : pre ++ List.replicate (24 * (a :: l).length) 0 ++ post = pre ++ List.replicate 24 0 ++ (List.replicate (24 * l.length) 0 ++ post) := by
      rw [List.append_assoc, List.append_assoc, ← List.append_assoc (List.replicate 24 0), List.replicate_append_replicate, List.length_cons]
      congr 3; omega
    rw [setAips, e, setAip_mid, okb]
    have := ih (pre ++ aipBlock a) post (n + 1)
    rw [List.length_append, aipBlock_length] at this
    rw [← List.append_assoc, this]
    congr 2
    · simp
    · simp; omega

theorem readAip_block (a : AllowedIP) (h : a.cidr.toNat ≤ addrBits a.addr) : readAip (aipBlock a) = some a := by
  have hl := addrBytes_le a.addr
  obtain ⟨e1, e2⟩ := aip_lengths a
  have b2 : 18 + [a.cidr].length ≤ (put (List.replicate 24 0) 16 (leBytes 2 (famNum a.addr)) : List UInt8).length := by rw [e1]; simp
  have b3 : 0 + (addrBytes a.addr).length ≤ (put (put (List.replicate 24 0) 16 (leBytes 2 (famNum a.addr))) 18 [a.cidr] : List UInt8).length := by omega
  have hc : number (aipBlock a) 18 1 = a.cidr.toNat := by
    rw [number, aipBlock, field_put_ne b3 (.inr (by omega)), field_put_same b2 (n := 1) rfl]
    simp [le]
  have hf : number (aipBlock a) 16 2 = famNum a.addr := by
    rw [number, aipBlock, field_put_ne b3 (.inr (by omega)), field_put_ne b2 (.inl (by omega)), field_put_same (by simp [leBytes_length]) (leBytes_length _ _).symm, le_eq, leNat_leBytes]
    cases a.addr <;> rfl
  obtain ⟨ad, c⟩ := a
  unfold readAip
  cases ad with
  | v4 b =>
    have hb : field (aipBlock ⟨.v4 b, c⟩) 0 4 = b.toList := by
      rw [aipBlock, field_put_same b3 (by simp [addrBytes])]
      rfl
    simp only [addrBits] at h
    simp only [hc, hb, hf, famNum, UInt8.ofNat_toNat]
    rw [if_pos ⟨trivial, h⟩]
    rw [bytes?_toList]; rfl
  | v6 b =>
    have hb : field (aipBlock ⟨.v6 b, c⟩) 0 16 = b.toList := by
      rw [aipBlock, field_put_same b3 (by simp [addrBytes])]
      rfl
    simp only [addrBits] at h
    simp only [hc, hb, hf, famNum, UInt8.ofNat_toNat]
    rw [if_neg (by simp), if_pos ⟨trivial, h⟩]
    rw [bytes?_toList]; rfl

theorem readAips_blocks (l : List AllowedIP) (h : ∀ a ∈ l, a.cidr.toNat ≤ addrBits a.addr) (r : List UInt8) :
    readAips l.length (l.flatMap aipBlock ++ r) = some (l, r) := by
  induction l with
  | nil => simp [readAips]
  | cons a l ih =>
    have ha := aipBlock_length a
    have e : (a :: l).flatMap aipBlock ++ r = aipBlock a ++ (l.flatMap aipBlock ++ r) := by simp
    rw [e, List.length_cons, readAips, if_neg (by simp; omega), List.take_left' ha, List.drop_left' ha, readAip_block a (h a (by simp)), ih fun a h' => h a (by simp [h'])]
    rfl

/-- What is stored for an endpoint: whether its flag is set, and the bytes. -/
def epFlag (p : Peer) : Bool := leNat ((epUnion p.endpoint).take 2) = 2 ∨ leNat ((epUnion p.endpoint).take 2) = 23
def epBytes (p : Peer) : List UInt8 := (epUnion p.endpoint).take (if leNat ((epUnion p.endpoint).take 2) = 2 then 16 else 28)

theorem epBytes_le (p : Peer) : (epBytes p).length ≤ 28 := by
  unfold epBytes epUnion
  cases p.endpoint <;> simp [u32b, leNat]

/-- The 136 bytes of a peer before the number of its allowed IPs. -/
def peerBlock0 (p : Peer) : List UInt8 :=
  let m := put (List.replicate 136 0) 0 (leBytes 4 1)
  let m := put m 8 p.publicKey.toList
  let m := orB p.flags.hasPresharedKey (Obsd.putIf p.flags.hasPresharedKey m 40 p.presharedKey.toList) 0 4 2
  let m := orB p.flags.hasKeepalive (Obsd.putIf p.flags.hasKeepalive m 72 (leBytes 2 p.keepalive.toNat)) 0 4 4
  let m := orB (epFlag p) (Obsd.putIf (epFlag p) m 76 (epBytes p)) 0 4 8
  let m := orB p.flags.replaceAllowedIPs m 0 4 32
  orB p.flags.removeMe m 0 4 64

def peerBlock (p : Peer) : List UInt8 := put (peerBlock0 p) 128 (leBytes 4 p.allowedIPs.length) ++ p.allowedIPs.flatMap aipBlock

theorem setPeer_mid (pre post : List UInt8) (p : Peer) :
    setPeer (pre ++ List.replicate (136 + 24 * p.allowedIPs.length) 0 ++ post) pre.length p =
      .ok (pre ++ peerBlock p ++ post, pre.length + (peerBlock p).length) ∧ (peerBlock p).length = 136 + 24 * p.allowedIPs.length := by
  have e : pre ++ List.replicate (136 + 24 * p.allowedIPs.length) 0 ++ post = pre ++ List.replicate 136 0 ++ (List.replicate (24 * p.allowedIPs.length) 0 ++ post) := by
    simp [List.replicate_add]
  have he := epBytes_le p
  have L0 : (List.replicate 136 (0 : UInt8)).length = 136 := by simp
  have L1 := put_length' L0 (k := 0) (d := leBytes 4 1) (by rw [leBytes_length]; omega)
  have L2 := put_length' L1 (k := 8) (d := p.publicKey.toList) (by rw [key_length]; omega)
  have L3 := putIf_length' (c := p.flags.hasPresharedKey) L2 (k := 40) (d := p.presharedKey.toList) (by rw [key_length]; omega)
  have L4 := orB_length' (c := p.flags.hasPresharedKey) L3 (k := 0) (n := 4) (x := 2) (by omega)
  have L5 := putIf_length' (c := p.flags.hasKeepalive) L4 (k := 72) (d := leBytes 2 p.keepalive.toNat) (by rw [leBytes_length]; omega)
  have L6 := orB_length' (c := p.flags.hasKeepalive) L5 (k := 0) (n := 4) (x := 4) (by omega)
  have L7 := putIf_length' (c := epFlag p) L6 (k := 76) (d := epBytes p) (by omega)
  have L8 := orB_length' (c := epFlag p) L7 (k := 0) (n := 4) (x := 8) (by omega)
  have L9 := orB_length' (c := p.flags.replaceAllowedIPs) L8 (k := 0) (n := 4) (x := 32) (by omega)
  have L10 : (peerBlock0 p).length = 136 := orB_length' (c := p.flags.removeMe) L9 (k := 0) (n := 4) (x := 64) (by omega)
  have hlen : (peerBlock p).length = 136 + 24 * p.allowedIPs.length := by
    rw [peerBlock, List.length_append, put_length' L10 (by rw [leBytes_length]; omega)]
    congr 1
    induction p.allowedIPs with
    | nil => rfl
    | cons a l ih => simp [aipBlock_length, ih]; omega
  refine ⟨?_, hlen⟩
  unfold setPeer
  rw [e, store_mid0 _ _ _ _ (by rw [leBytes_length, L0]; omega), okb, store_mid _ _ _ _ _ (by rw [key_length, L1]; omega), okb,
    storeFlagged_mid0 _ _ _ _ _ _ _ _ (by rw [key_length, L2]; omega) (by rw [L2]; omega), okb,
    storeFlagged_mid0 _ _ _ _ _ _ _ _ (by rw [leBytes_length, L4]; omega) (by rw [L4]; omega), okb]
  dsimp only
  rw [show (epUnion p.endpoint).take (if leNat ((epUnion p.endpoint).take 2) = 2 then 16 else 28) = epBytes p from rfl,
    show decide (leNat ((epUnion p.endpoint).take 2) = 2 ∨ leNat ((epUnion p.endpoint).take 2) = 23) = epFlag p from rfl,
    storeFlagged_mid0 _ _ _ _ _ _ _ _ (by rw [L6]; omega) (by rw [L6]; omega), okb, orIf_mid0 _ _ _ _ _ _ (by rw [L8]; omega), okb, orIf_mid0 _ _ _ _ _ _ (by rw [L9]; omega), okb]
  have hs := setAips_mid p.allowedIPs (pre ++ peerBlock0 p) post 0
  rw [List.length_append, L10] at hs
  have e2 : pre ++ peerBlock0 p ++ (List.replicate (24 * p.allowedIPs.length) 0 ++ post) = pre ++ peerBlock0 p ++ List.replicate (24 * p.allowedIPs.length) 0 ++ post := by simp
  rw [show (orB p.flags.removeMe _ 0 4 64) = peerBlock0 p from rfl, e2, hs, okb]
  dsimp only
  rw [List.append_assoc (pre ++ peerBlock0 p), store_mid _ _ _ _ _ (by rw [leBytes_length, L10]; omega), okb, hlen]
  congr 2
  · simp [peerBlock]
  · omega

/-- The fields of a peer block. -/
theorem peerBlock_fields (p : Peer) :
    field (peerBlock0 p) 8 32 = p.publicKey.toList ∧ field (peerBlock0 p) 40 32 = (if p.flags.hasPresharedKey then p.presharedKey.toList else List.replicate 32 0) ∧
    field (peerBlock0 p) 72 2 = (if p.flags.hasKeepalive then leBytes 2 p.keepalive.toNat else List.replicate 2 0) ∧
    (epFlag p = true → field (peerBlock0 p) 76 (epBytes p).length = epBytes p) ∧
    (∀ i n, 104 ≤ i → i + n ≤ 136 → field (peerBlock0 p) i n = List.replicate n 0) ∧
    number (peerBlock0 p) 0 4 = 1 + (if p.flags.hasPresharedKey then 2 else 0) + (if p.flags.hasKeepalive then 4 else 0) + (if epFlag p then 8 else 0) +
      (if p.flags.replaceAllowedIPs then 32 else 0) + (if p.flags.removeMe then 64 else 0) ∧ (peerBlock0 p).length = 136 := by
  have he := epBytes_le p
  have L0 : (List.replicate 136 (0 : UInt8)).length = 136 := by simp
  have b1 : 0 + (leBytes 4 1).length ≤ (List.replicate 136 (0 : UInt8)).length := by rw [leBytes_length, L0]; omega
  have L1 := put_length' L0 (k := 0) (d := leBytes 4 1) (by rw [leBytes_length]; omega)
  have b2 : 8 + p.publicKey.toList.length ≤ (put (List.replicate 136 0) 0 (leBytes 4 1)).length := by rw [key_length, L1]; omega
  have L2 := put_length' L1 (k := 8) (d := p.publicKey.toList) (by rw [key_length]; omega)
  have b3 : 40 + p.presharedKey.toList.length ≤ 136 := by rw [key_length]; omega
  have L3 := putIf_length' (c := p.flags.hasPresharedKey) L2 (k := 40) (d := p.presharedKey.toList) b3
  have L4 := orB_length' (c := p.flags.hasPresharedKey) L3 (k := 0) (n := 4) (x := 2) (by omega)
  have b5 : 72 + (leBytes 2 p.keepalive.toNat).length ≤ 136 := by rw [leBytes_length]; omega
  have L5 := putIf_length' (c := p.flags.hasKeepalive) L4 (k := 72) (d := leBytes 2 p.keepalive.toNat) b5
  have L6 := orB_length' (c := p.flags.hasKeepalive) L5 (k := 0) (n := 4) (x := 4) (by omega)
  have L7 := putIf_length' (c := epFlag p) L6 (k := 76) (d := epBytes p) (by omega)
  have L8 := orB_length' (c := epFlag p) L7 (k := 0) (n := 4) (x := 8) (by omega)
  have L9 := orB_length' (c := p.flags.replaceAllowedIPs) L8 (k := 0) (n := 4) (x := 32) (by omega)
  have L10 : (peerBlock0 p).length = 136 := orB_length' (c := p.flags.removeMe) L9 (k := 0) (n := 4) (x := 64) (by omega)
  -- behind the flags, the or-ed stores do not matter
  have step (i n : Nat) (hi : 4 ≤ i) : field (peerBlock0 p) i n = field (Obsd.putIf (epFlag p) (Obsd.putIf p.flags.hasKeepalive (Obsd.putIf p.flags.hasPresharedKey
      (put (List.replicate 136 0) 8 p.publicKey.toList) 40 p.presharedKey.toList) 72 (leBytes 2 p.keepalive.toNat)) 76 (epBytes p)) i n := by
    have K2 := put_length' L0 (k := 8) (d := p.publicKey.toList) (by rw [key_length]; omega)
    have K3 := putIf_length' (c := p.flags.hasPresharedKey) K2 (k := 40) (d := p.presharedKey.toList) b3
    have K5 := putIf_length' (c := p.flags.hasKeepalive) K3 (k := 72) (d := leBytes 2 p.keepalive.toNat) b5
    have aux : ∀ (x y : List UInt8) (hx : x.length = 136) (hy : y.length = 136) (c : Bool) (k : Nat) (d : List UInt8), k + d.length ≤ 136 →
        (∀ i n, 4 ≤ i → field x i n = field y i n) → ∀ i n, 4 ≤ i → field (Obsd.putIf c x k d) i n = field (Obsd.putIf c y k d) i n := by
      intro x y hx hy c k d hk h i n hi
      cases c
      · exact h i n hi
      · have hxy : x.drop 4 = y.drop 4 := by
          have := h 4 136 (by omega)
          simpa [field, List.take_of_length_le, hx, hy] using this
        have : ∀ (z : List UInt8), z.length = 136 → field (put z k d) i n = (((put z k d).drop 4).drop (i - 4)).take n := by
          intro z _
          rw [field, List.drop_drop]; congr 2; omega
        rw [Obsd.putIf, if_pos rfl, Obsd.putIf, if_pos rfl, this x hx, this y hy]
        congr 2
        apply List.ext_getElem?
        intro j
        have hj : x[4 + j]? = y[4 + j]? := by rw [← List.getElem?_drop, hxy, List.getElem?_drop]
        simp only [put, List.getElem?_drop, List.getElem?_append, List.length_append, List.length_take, List.getElem?_take, hx, hy]
        by_cases h1 : 4 + j < min k 136 + d.length
        · simp only [h1, if_true]
          by_cases h2 : 4 + j < min k 136
          · simp only [h2, if_true, hj]
          · simp only [h2, if_false]
        · simp only [h1, if_false]
          have e : ∀ z : List UInt8, z[k + d.length + (4 + j - (min k 136 + d.length))]? = z[4 + j]? := by intro z; congr 1; omega
          rw [e, e, hj]
    have orNe : ∀ (x : List UInt8) (c : Bool) (y : Nat), x.length = 136 → ∀ i n, 4 ≤ i → field (orB c x 0 4 y) i n = field x i n := by
      intro x c y hx i n hi
      exact field_orB_ne (by omega) (.inr (by omega))
    unfold peerBlock0
    rw [orNe _ _ _ L9 _ _ hi, orNe _ _ _ L8 _ _ hi, orNe _ _ _ L7 _ _ hi]
    refine aux _ _ L6 K5 _ _ _ (by omega) (fun i n hi => ?_) i n hi
    rw [orNe _ _ _ L5 _ _ hi]
    refine aux _ _ L4 K3 _ _ _ b5 (fun i n hi => ?_) i n hi
    rw [orNe _ _ _ L3 _ _ hi]
    refine aux _ _ L2 K2 _ _ _ b3 (fun i n hi => ?_) i n hi
    refine aux _ _ L1 L0 true _ _ (by rw [key_length]; omega) (fun i n hi => ?_) i n hi
    exact field_put_ne b1 (.inr (by rw [leBytes_length]; omega))
  have K2 := put_length' L0 (k := 8) (d := p.publicKey.toList) (by rw [key_length]; omega)
  have K3 := putIf_length' (c := p.flags.hasPresharedKey) K2 (k := 40) (d := p.presharedKey.toList) b3
  have K5 := putIf_length' (c := p.flags.hasKeepalive) K3 (k := 72) (d := leBytes 2 p.keepalive.toNat) b5
  have kl := key_length p.publicKey
  have pl := key_length p.presharedKey
  have ll := leBytes_length 2 p.keepalive.toNat
  refine ⟨?_, ?_, ?_, ?_, ?_, ?_, L10⟩
  · rw [step 8 32 (by omega), field_putIf_ne (by omega) (.inl (by omega)), field_putIf_ne (by omega) (.inl (by omega)), field_putIf_ne (by omega) (.inl (by omega)),
      field_put_same (by omega) kl.symm]
  · rw [step 40 32 (by omega), field_putIf_ne (by omega) (.inl (by omega)), field_putIf_ne (by omega) (.inl (by omega)), field_putIf_same (by omega) pl.symm,
      field_put_ne (by omega) (.inr (by omega)), field_zeros (by omega)]
  · rw [step 72 2 (by omega), field_putIf_ne (by omega) (.inl (by omega)), field_putIf_same (by omega) ll.symm, field_putIf_ne (by omega) (.inr (by omega)),
      field_put_ne (by omega) (.inr (by omega)), field_zeros (by omega)]
  · intro h
    rw [step 76 _ (by omega), field_putIf_same (by omega) rfl, if_pos h]
  · intro i n h1 h2
    rw [step i n (by omega), field_putIf_ne (by omega) (.inr (by omega)), field_putIf_ne (by omega) (.inr (by omega)), field_putIf_ne (by omega) (.inr (by omega)),
      field_put_ne (by omega) (.inr (by omega)), field_zeros (by omega)]
  · have n1 : number (put (put (List.replicate 136 0) 0 (leBytes 4 1)) 8 p.publicKey.toList) 0 4 = 1 := by
      rw [number, field_put_ne b2 (.inl (by omega)), field_put_same b1 (leBytes_length _ _).symm]; rfl
    have nIf : ∀ (x : List UInt8) (c : Bool) (k : Nat) (d : List UInt8), x.length = 136 → 4 ≤ k → k + d.length ≤ 136 → number (Obsd.putIf c x k d) 0 4 = number x 0 4 := by
      intro x c k d h1 h2 h3
      rw [number, field_putIf_ne (by omega) (.inl (by omega))]; rfl
    unfold peerBlock0
    rw [number_orB_same (by omega), number_orB_same (by omega), number_orB_same (by omega), nIf _ _ _ _ L6 (by omega) (by omega), number_orB_same (by omega),
      nIf _ _ _ _ L4 (by omega) b5, number_orB_same (by omega), nIf _ _ _ _ L2 (by omega) b3, n1]
    cases p.flags.hasPresharedKey <;> cases p.flags.hasKeepalive <;> cases epFlag p <;> cases p.flags.replaceAllowedIPs <;> cases p.flags.removeMe <;> rfl

/-- What the kernel is to read for a peer. -/
def wantPeer (p : Peer) : IoPeer where
  key := some p.publicKey
  psk := if p.flags.hasPresharedKey then some p.presharedKey else none
  keepalive := if p.flags.hasKeepalive then some p.keepalive else none
  endpoint := if p.endpoint = .unset then none else some p.endpoint
  replaceIPs := p.flags.replaceAllowedIPs
  remove := p.flags.removeMe
  ips := p.allowedIPs

theorem readSockaddr_in4 (m : List UInt8) (a : IP4) (p : UInt16)
    (h : field m 0 16 = [2, 0, UInt8.ofNat (p.toNat / 256), UInt8.ofNat p.toNat] ++ a.toList ++ List.replicate 8 0) : readSockaddr m = some (.in4 a p) := by
  have sub (i n : Nat) (hi : i + n ≤ 16) : field m i n = field (field m 0 16) i n := by rw [field_field hi, Nat.zero_add]
  have al : a.toList.length = 4 := by simp
  unfold readSockaddr number
  rw [sub 0 2 (by omega), sub 4 4 (by omega), sub 2 2 (by omega), h]
  rw [if_pos (show le (field ([2, 0, UInt8.ofNat (p.toNat / 256), UInt8.ofNat p.toNat] ++ a.toList ++ List.replicate 8 0) 0 2) = 2 from rfl)]
  have : field ([2, 0, UInt8.ofNat (p.toNat / 256), UInt8.ofNat p.toNat] ++ a.toList ++ List.replicate 8 0) 4 4 = a.toList := by
    simp [field, al]
  rw [this, bytes?_toList]
  have : field ([2, 0, UInt8.ofNat (p.toNat / 256), UInt8.ofNat p.toNat] ++ a.toList ++ List.replicate 8 0) 2 2 = [UInt8.ofNat (p.toNat / 256), UInt8.ofNat p.toNat] := rfl
  rw [this, bePort_eq]
  rfl

theorem readSockaddr_in6 (m : List UInt8) (a : IP6) (p : UInt16) (fl sc : UInt32)
    (h : field m 0 28 = [23, 0, UInt8.ofNat (p.toNat / 256), UInt8.ofNat p.toNat] ++ u32b fl.toNat ++ a.toList ++ u32b sc.toNat) : readSockaddr m = some (.in6 a p fl sc) := by
  have sub (i n : Nat) (hi : i + n ≤ 28) : field m i n = field (field m 0 28) i n := by rw [field_field hi, Nat.zero_add]
  have al : a.toList.length = 16 := by simp
  unfold readSockaddr number
  rw [sub 0 2 (by omega), sub 4 4 (by omega), sub 2 2 (by omega), sub 8 16 (by omega), sub 24 4 (by omega), h]
  generalize hx : [23, 0, UInt8.ofNat (p.toNat / 256), UInt8.ofNat p.toNat] ++ u32b fl.toNat ++ a.toList ++ u32b sc.toNat = x
  have hx' : x = [23, 0, UInt8.ofNat (p.toNat / 256), UInt8.ofNat p.toNat] ++ u32b fl.toNat ++ (a.toList ++ u32b sc.toNat) := by rw [← hx]; simp
  have h0 : field x 0 2 = [23, 0] := by rw [hx']; rfl
  have h2 : field x 2 2 = [UInt8.ofNat (p.toNat / 256), UInt8.ofNat p.toNat] := by rw [hx']; rfl
  have h4 : field x 4 4 = u32b fl.toNat := by rw [hx']; rfl
  have h8 : field x 8 16 = a.toList := by rw [hx', field, List.drop_left' (by simp [u32b]), List.take_left' al]
  have h24 : field x 24 4 = u32b sc.toNat := by
    rw [hx', ← List.append_assoc, field, List.drop_left' (by simp [u32b])]; rfl
  rw [h0, h2, h4, h8, h24, if_neg (by decide), if_pos (by decide), bytes?_toList, bePort_eq, Obsd.le_u32b, Obsd.le_u32b]
  rfl

theorem epFlag_iff (p : Peer) : epFlag p = true ↔ p.endpoint ≠ .unset := by
  unfold epFlag epUnion
  cases p.endpoint <;> simp [leNat]

theorem take_replicate_zero_field (a : IP4) (p : UInt16) :
    (epUnion (.in4 a p)).take (if leNat ((epUnion (.in4 a p)).take 2) = 2 then 16 else 28) = [2, 0, UInt8.ofNat (p.toNat / 256), UInt8.ofNat p.toNat] ++ a.toList ++ List.replicate 8 0 := by
  have al : a.toList.length = 4 := by simp
  have : (if leNat ((epUnion (.in4 a p)).take 2) = 2 then 16 else 28) = 16 := rfl
  rw [this, epUnion, List.take_append, List.take_of_length_le (by simp)]
  simp

theorem readEndpoint_block (p : Peer) (h : epFlag p = true) (m : List UInt8) (hm : field m 0 (epBytes p).length = epBytes p) : readSockaddr m = some p.endpoint := by
  rw [epFlag_iff] at h
  unfold epBytes at hm
  cases he : p.endpoint with
  | unset => exact absurd he h
  | in4 a pt =>
    rw [he, take_replicate_zero_field] at hm
    apply readSockaddr_in4
    have : ([2, 0, UInt8.ofNat (pt.toNat / 256), UInt8.ofNat pt.toNat] ++ a.toList ++ List.replicate 8 0).length = 16 := by simp
    rwa [this] at hm
  | in6 a pt fl sc =>
    have hl : (epUnion (.in6 a pt fl sc)).length = 28 := by simp [epUnion, u32b]
    have h28 : (if leNat ((epUnion (.in6 a pt fl sc)).take 2) = 2 then 16 else 28) = 28 := rfl
    rw [he, h28, List.take_of_length_le (by omega), hl] at hm
    exact readSockaddr_in6 _ _ _ _ _ hm

theorem readPeer_block (p : Peer) (hn : p.allowedIPs.length < 2 ^ 32) (hip : ∀ a ∈ p.allowedIPs, a.cidr.toNat ≤ addrBits a.addr) (r : List UInt8) :
    readPeer (peerBlock p ++ r) = some (wantPeer p, r) := by
  obtain ⟨f1, f2, f3, f4, f5, f6, L⟩ := peerBlock_fields p
  have hb : 128 + (leBytes 4 p.allowedIPs.length).length ≤ (peerBlock0 p).length := by rw [leBytes_length, L]; omega
  have Lc : (put (peerBlock0 p) 128 (leBytes 4 p.allowedIPs.length)).length = 136 := by rw [put_length hb, L]
  have fld (i n : Nat) (h : i + n ≤ 128) : field (peerBlock p ++ r) i n = field (peerBlock0 p) i n := by
    rw [peerBlock, List.append_assoc, field_append_left (by omega), field_put_ne hb (.inl h)]
  have num (i n : Nat) (h : i + n ≤ 128) : number (peerBlock p ++ r) i n = number (peerBlock0 p) i n := by rw [number, fld i n h]; rfl
  have zero (i : Nat) (h1 : 104 ≤ i) (h2 : i + 8 ≤ 128) : number (peerBlock p ++ r) i 8 = 0 := by
    rw [num i 8 h2, number, f5 i 8 h1 (by omega)]; rfl
  have cnt : number (peerBlock p ++ r) 128 4 = p.allowedIPs.length := by
    rw [number, peerBlock, List.append_assoc, field_append_left (by omega), field_put_same hb (leBytes_length _ _).symm, le_eq, leNat_leBytes, Nat.mod_eq_of_lt (by omega)]
  have rest : (peerBlock p ++ r).drop 136 = p.allowedIPs.flatMap aipBlock ++ r := by rw [peerBlock, List.append_assoc, List.drop_left' Lc]
  have ka : field (peerBlock p ++ r) 72 2 = _ := (fld 72 2 (by omega)).trans f3
  rw [readPeer, if_neg (by rw [peerBlock]; simp; omega)]
  dsimp only
  rw [fld 8 32 (by omega), fld 40 32 (by omega), fld 76 28 (by omega), num 0 4 (by omega), zero 104 (by omega) (by omega), zero 112 (by omega) (by omega), zero 120 (by omega) (by omega),
    cnt, rest, f1, f2, f6, readAips_blocks _ hip, number, ka]
  have hep : epFlag p = true → readSockaddr (field (peerBlock0 p) 76 28) = some p.endpoint := by
    intro h
    apply readEndpoint_block p h
    have := epBytes_le p
    rw [field_field (a := 0) (b := (epBytes p).length) (by omega)]
    exact f4 h
  have hep' : epFlag p = false → p.endpoint = .unset := by
    intro h
    by_contra hc
    rw [(epFlag_iff p).2 hc] at h; cases h
  have hka : UInt16.ofNat (le (leBytes 2 p.keepalive.toNat)) = p.keepalive := by
    rw [le_eq, leNat_leBytes]
    have := p.keepalive.toNat_lt
    rw [Nat.mod_eq_of_lt (by omega), UInt16.ofNat_toNat]
  have hpub : bytes? 32 p.publicKey.toList = some p.publicKey := bytes?_toList _
  have hpsk : bytes? 32 p.presharedKey.toList = some p.presharedKey := bytes?_toList _
  rw [hpub]
  unfold wantPeer
  cases h1 : p.flags.hasPresharedKey <;> cases h2 : p.flags.hasKeepalive <;> cases h3 : epFlag p <;> cases h4 : p.flags.replaceAllowedIPs <;> cases h5 : p.flags.removeMe <;>
    first
    | (have h6 := (epFlag_iff p).1 h3
       rw [hep h3]
       simp [flagged, h6, hpsk, hka, Nat.testBit])
    | (have h6 := hep' h3
       simp [flagged, h6, hpsk, hka, Nat.testBit])

def peersSize (l : List Peer) : Nat := (l.map fun p => 136 + 24 * p.allowedIPs.length).sum

theorem setPeers_mid (l : List Peer) : ∀ (pre post : List UInt8) (n : Nat),
    setPeers (pre ++ List.replicate (peersSize l) 0 ++ post) pre.length n l = .ok (pre ++ l.flatMap peerBlock ++ post, n + l.length) := by
  induction l with
  | nil => intro pre post n; simp [setPeers, peersSize]
  | cons p l ih =>
    intro pre post n
    have e : pre ++ List.replicate (peersSize (p :: l)) 0 ++ post =
        pre ++ List.replicate (136 + 24 * p.allowedIPs.length) 0 ++ (List.replicate (peersSize l) 0 ++ post) := by
      rw [peersSize, List.map_cons, List.sum_cons, List.replicate_add, peersSize]
      simp only [List.append_assoc]
    rw [setPeers, e, (setPeer_mid _ _ p).1, okb]
    have := ih (pre ++ peerBlock p) post (n + 1)
    rw [List.length_append] at this
    dsimp only
    rw [← List.append_assoc, this]
    congr 2
    · simp
    · simp; omega

theorem readPeers_blocks (l : List Peer) (hn : ∀ p ∈ l, p.allowedIPs.length < 2 ^ 32) (hip : ∀ p ∈ l, ∀ a ∈ p.allowedIPs, a.cidr.toNat ≤ addrBits a.addr) (r : List UInt8) :
    readPeers l.length (l.flatMap peerBlock ++ r) = some (l.map wantPeer, r) := by
  induction l with
  | nil => simp [readPeers]
  | cons p l ih =>
    have e : (p :: l).flatMap peerBlock ++ r = peerBlock p ++ (l.flatMap peerBlock ++ r) := by simp
    rw [e, List.length_cons, readPeers, readPeer_block p (hn p (by simp)) (hip p (by simp))]
    simp only [Option.bind_some]
    rw [ih (fun p h => hn p (by simp [h])) fun p h => hip p (by simp [h])]
    rfl

theorem addAips_eq : ∀ (l : List AllowedIP) (n : Nat), n < 2 ^ 32 → addAips n l = if n + 24 * l.length < 2 ^ 32 then some (n + 24 * l.length) else none := by
  intro l
  induction l with
  | nil => intro n hn; rw [addAips, List.length_nil, Nat.mul_zero, Nat.add_zero, if_pos hn]
  | cons a l ih =>
    intro n hn
    rw [addAips, List.length_cons]
    by_cases h : 2 ^ 32 - 1 - n < 24
    · rw [if_pos h, if_neg (by omega)]
    · rw [if_neg h, ih _ (by omega), show n + 24 + 24 * l.length = n + 24 * (l.length + 1) by omega]

theorem addPeers_eq : ∀ (l : List Peer) (n : Nat), n < 2 ^ 32 → addPeers n l = if n + peersSize l < 2 ^ 32 then some (n + peersSize l) else none := by
  intro l
  induction l with
  | nil => intro n hn; rw [addPeers, show peersSize [] = 0 from rfl, Nat.add_zero, if_pos hn]
  | cons p l ih =>
    intro n hn
    have e : peersSize (p :: l) = 136 + 24 * p.allowedIPs.length + peersSize l := by rw [peersSize, List.map_cons, List.sum_cons]; rfl
    rw [addPeers, e]
    by_cases h : 2 ^ 32 - 1 - n < 136
    · rw [if_pos h, if_neg (by omega)]
    · rw [if_neg h, addAips_eq _ _ (by omega)]
      by_cases h2 : n + 136 + 24 * p.allowedIPs.length < 2 ^ 32
      · rw [if_pos h2, Option.bind_some, ih _ h2, show n + 136 + 24 * p.allowedIPs.length + peersSize l = n + (136 + 24 * p.allowedIPs.length + peersSize l) by omega]
      · rw [if_neg h2, Option.bind_none, if_neg (by omega)]

/-- The first 80 bytes before the number of peers. -/
def ifaceBlock0 (d : Device) : List UInt8 :=
  let m := orB d.flags.hasPrivateKey (Obsd.putIf d.flags.hasPrivateKey (List.replicate 80 0) 6 d.privateKey.toList) 0 4 2
  let m := orB d.flags.hasListenPort (Obsd.putIf d.flags.hasListenPort m 4 (leBytes 2 d.listenPort.toNat)) 0 4 4
  orB d.flags.replacePeers m 0 4 8

def ifaceBlock (d : Device) : List UInt8 := put (ifaceBlock0 d) 72 (leBytes 4 d.peers.length) ++ d.peers.flatMap peerBlock

/-- What the driver is to read. -/
def wantIface (d : Device) : IoIface where
  privateKey := if d.flags.hasPrivateKey then some d.privateKey else none
  port := if d.flags.hasListenPort then some d.listenPort else none
  replacePeers := d.flags.replacePeers
  peers := d.peers.map wantPeer

theorem setBuffer_spec (d : Device) : setBuffer (80 + peersSize d.peers) d = .ok (ifaceBlock d) ∧ (ifaceBlock d).length = 80 + peersSize d.peers ∧
    ((∀ p ∈ d.peers, p.allowedIPs.length < 2 ^ 32) → d.peers.length < 2 ^ 32 → (∀ p ∈ d.peers, ∀ a ∈ p.allowedIPs, a.cidr.toNat ≤ addrBits a.addr) →
      readIface (ifaceBlock d) = some (wantIface d)) := by
  have kl := key_length d.privateKey
  have ll := leBytes_length 2 d.listenPort.toNat
  have l8 := leBytes_length 4 d.peers.length
  have L0 : (List.replicate 80 (0 : UInt8)).length = 80 := by simp
  have L1 := putIf_length' (c := d.flags.hasPrivateKey) L0 (k := 6) (d := d.privateKey.toList) (by omega)
  have L2 := orB_length' (c := d.flags.hasPrivateKey) L1 (k := 0) (n := 4) (x := 2) (by omega)
  have L3 := putIf_length' (c := d.flags.hasListenPort) L2 (k := 4) (d := leBytes 2 d.listenPort.toNat) (by omega)
  have L4 := orB_length' (c := d.flags.hasListenPort) L3 (k := 0) (n := 4) (x := 4) (by omega)
  have L7 : (ifaceBlock0 d).length = 80 := orB_length' (c := d.flags.replacePeers) L4 (k := 0) (n := 4) (x := 8) (by omega)
  have L8 := put_length' L7 (k := 72) (d := leBytes 4 d.peers.length) (by omega)
  have plen : (d.peers.flatMap peerBlock).length = peersSize d.peers := by
    induction d.peers with
    | nil => rfl
    | cons p l ih => simp [(setPeer_mid [] [] p).2, ih, peersSize]
  refine ⟨?_, ?_, ?_⟩
  · have st (b : Bool) (blk post : List UInt8) (k : Nat) (d : List UInt8) (n x : Nat) (h : k + d.length ≤ blk.length) (hf : n ≤ blk.length) :
        storeFlagged b (blk ++ post) k d 0 n x = .ok (orB b (Obsd.putIf b blk k d) 0 n x ++ post) := by
      have := storeFlagged_mid0 b [] blk post k d n x h hf
      simpa using this
    have oi := orIf_mid0 d.flags.replacePeers [] (orB d.flags.hasListenPort (Obsd.putIf d.flags.hasListenPort
      (orB d.flags.hasPrivateKey (Obsd.putIf d.flags.hasPrivateKey (List.replicate 80 0) 6 d.privateKey.toList) 0 4 2) 4 (leBytes 2 d.listenPort.toNat)) 0 4 4)
      (List.replicate (peersSize d.peers) 0) 4 8 (by omega)
    rw [List.nil_append, List.length_nil] at oi
    have hp := setPeers_mid d.peers (ifaceBlock0 d) [] 0
    rw [List.append_nil, List.append_nil, L7, Nat.zero_add] at hp
    have hs := store_mid [] (ifaceBlock0 d) (d.peers.flatMap peerBlock) 72 (leBytes 4 d.peers.length) (by omega)
    rw [List.nil_append, List.length_nil, Nat.zero_add] at hs
    unfold setBuffer
    rw [List.replicate_add]
    dsimp only
    rw [st _ _ _ _ _ _ _ (by omega) (by omega), okb, st _ _ _ _ _ _ _ (by omega) (by omega), okb, oi, okb, List.nil_append]
    rw [show orB d.flags.replacePeers _ 0 4 8 = ifaceBlock0 d from rfl, hp, okb, hs]
    rfl
  · rw [ifaceBlock, List.length_append, L8, plen]
  · intro h1 h2 h3
    have hb : 72 + (leBytes 4 d.peers.length).length ≤ (ifaceBlock0 d).length := by omega
    have fld (i n : Nat) (h : i + n ≤ 72) : field (ifaceBlock d) i n = field (ifaceBlock0 d) i n := by
      rw [ifaceBlock, field_append_left (by omega), field_put_ne hb (.inl h)]
    have cnt : number (ifaceBlock d) 72 4 = d.peers.length := by
      rw [number, ifaceBlock, field_append_left (by omega), field_put_same hb l8.symm, le_eq, leNat_leBytes, Nat.mod_eq_of_lt (by omega)]
    have rest : (ifaceBlock d).drop 80 = d.peers.flatMap peerBlock ++ [] := by rw [ifaceBlock, List.drop_left' L8, List.append_nil]
    have f40 : field (ifaceBlock0 d) 6 32 = if d.flags.hasPrivateKey then d.privateKey.toList else List.replicate 32 0 := by
      unfold ifaceBlock0
      rw [field_orB_ne (by omega) (.inr (by omega)), field_orB_ne (by omega) (.inr (by omega)), field_putIf_ne (by omega) (.inr (by omega)), field_orB_ne (by omega) (.inr (by omega)),
        field_putIf_same (by omega) kl.symm, field_zeros (by omega)]
    have f2 : field (ifaceBlock0 d) 4 2 = if d.flags.hasListenPort then leBytes 2 d.listenPort.toNat else List.replicate 2 0 := by
      unfold ifaceBlock0
      rw [field_orB_ne (by omega) (.inr (by omega)), field_orB_ne (by omega) (.inr (by omega)), field_putIf_same (by omega) ll.symm, field_orB_ne (by omega) (.inr (by omega)),
        field_putIf_ne (by omega) (.inl (by omega)), field_zeros (by omega)]
    have f0 : number (ifaceBlock0 d) 0 4 = (if d.flags.hasPrivateKey then 2 else 0) + (if d.flags.hasListenPort then 4 else 0) + (if d.flags.replacePeers then 8 else 0) := by
      have nIf : ∀ (x : List UInt8) (c : Bool) (k : Nat) (d : List UInt8), x.length = 80 → 4 ≤ k → k + d.length ≤ 80 → number (Obsd.putIf c x k d) 0 4 = number x 0 4 := by
        intro x c k d h1 h2 h3
        rw [number, field_putIf_ne (by omega) (.inl (by omega))]; rfl
      unfold ifaceBlock0
      rw [number_orB_same (by omega), number_orB_same (by omega), nIf _ _ _ _ L2 (by omega) (by omega), number_orB_same (by omega), nIf _ _ _ _ L0 (by omega) (by omega), number,
        field_zeros (by omega)]
      cases d.flags.hasPrivateKey <;> cases d.flags.hasListenPort <;> cases d.flags.replacePeers <;> rfl
    have n0 : number (ifaceBlock d) 0 4 = _ := (congrArg le (fld 0 4 (by omega))).trans f0
    have n2 : number (ifaceBlock d) 4 2 = _ := congrArg le ((fld 4 2 (by omega)).trans f2)
    have hport : UInt16.ofNat (le (leBytes 2 d.listenPort.toNat)) = d.listenPort := by
      rw [le_eq, leNat_leBytes]
      have := d.listenPort.toNat_lt
      rw [Nat.mod_eq_of_lt (by omega), UInt16.ofNat_toNat]
    have hpriv : bytes? 32 d.privateKey.toList = some d.privateKey := bytes?_toList _
    rw [readIface, if_neg (by rw [ifaceBlock]; simp; omega)]
    dsimp only
    rw [fld 6 32 (by omega), f40, n0, n2, cnt, rest, readPeers_blocks _ h1 h3]
    unfold wantIface
    cases d.flags.hasPrivateKey <;> cases d.flags.hasListenPort <;> cases d.flags.replacePeers <;> simp [flagged, hpriv, hport, Nat.testBit]

end WG.Win
