import Verif.Model.IpcOpenbsd
import Verif.Spec.Openbsd
import Verif.Proof.IpcList
import Verif.Proof.NetlinkMsg
/-! Proofs about the OpenBSD interface (C65). -/
namespace WG.Obsd
open Spec Spec.Obsd

/-! ### Bytes of a structure -/

theorem leBytes_length (n x : Nat) : (leBytes n x).length = n := by induction n generalizing x <;> simp_all [leBytes]

theorem le_eq (b : List UInt8) : le b = leNat b := by induction b <;> simp_all [le, leNat]

theorem leNat_leBytes (n x : Nat) : leNat (leBytes n x) = x % 256 ^ n := by
  induction n generalizing x with
  | zero => simp [leBytes, leNat, Nat.mod_one]
  | succ n ih =>
    rw [leBytes, leNat, ih, Nat.pow_succ', Nat.mod_mul, UInt8.toNat_ofNat']

/-- The bytes `d` at `k`. -/
def put (b : List UInt8) (k : Nat) (d : List UInt8) : List UInt8 := b.take k ++ d ++ b.drop (k + d.length)

theorem put_length {b : List UInt8} {k : Nat} {d : List UInt8} (h : k + d.length ≤ b.length) : (put b k d).length = b.length := by
  simp [put]; omega

theorem field_length {m : List UInt8} {i n : Nat} (h : i + n ≤ m.length) : (field m i n).length = n := by simp [field]; omega

theorem field_put_same {b : List UInt8} {k : Nat} {d : List UInt8} {n : Nat} (h : k + d.length ≤ b.length) (hn : n = d.length) : field (put b k d) k n = d := by
  subst hn
  have : (b.take k).length = k := by simp; omega
  rw [field, put, List.append_assoc, List.drop_append_of_le_length (by omega), List.drop_of_length_le (by omega), List.nil_append, List.take_left']
  rfl

theorem field_put_ne {b : List UInt8} {k : Nat} {d : List UInt8} {i n : Nat} (h : k + d.length ≤ b.length) (hd : i + n ≤ k ∨ k + d.length ≤ i) :
    field (put b k d) i n = field b i n := by
  apply List.ext_getElem?
  intro j
  simp only [field, put, List.getElem?_take, List.getElem?_drop, List.getElem?_append, List.length_append, List.length_take]
  by_cases hj : j < n
  · simp only [hj, if_true]
    rcases hd with hd | hd
    · rw [if_pos (by omega), if_pos (by omega), if_pos (by omega)]
    · rw [if_neg (by omega)]
      congr 1; omega
  · simp [hj]

theorem field_zeros {N i n : Nat} (h : i + n ≤ N) : field (List.replicate N 0) i n = List.replicate n 0 := by
  simp [field]; omega

/-- A store into the middle part of memory. -/
theorem store_mid (pre blk post : List UInt8) (k : Nat) (d : List UInt8) (h : k + d.length ≤ blk.length) :
    storeBytes (some (pre ++ blk ++ post)) (pre.length + k) d = .ok (pre ++ put blk k d ++ post) := by
  rw [storeBytes, if_pos (by simp; omega)]
  congr 1
  rw [List.append_assoc pre, List.take_append, List.take_of_length_le (by omega), show pre.length + k - pre.length = k by omega,
    List.take_append_of_le_length (by omega), List.drop_append, List.drop_of_length_le (by omega), List.nil_append,
    show pre.length + k + d.length - pre.length = k + d.length by omega, List.drop_append_of_le_length (by omega)]
  simp [put]

theorem store_mid0 (pre blk post : List UInt8) (d : List UInt8) (h : d.length ≤ blk.length) :
    storeBytes (some (pre ++ blk ++ post)) pre.length d = .ok (pre ++ put blk 0 d ++ post) := store_mid pre blk post 0 d (by omega)

/-- A read from the middle part. -/
theorem rdBytes_mid (pre blk post : List UInt8) (k n : Nat) (h : k + n ≤ blk.length) :
    rdBytes (pre ++ blk ++ post) (pre.length + k) n = .ok (field blk k n) := by
  rw [rdBytes, if_pos (by simp; omega), List.append_assoc, List.drop_append, List.drop_of_length_le (by omega), List.nil_append,
    show pre.length + k - pre.length = k by omega, List.drop_append_of_le_length (by omega), List.take_append_of_le_length (by simp; omega)]
  rfl

theorem rdNum_mid (pre blk post : List UInt8) (k n : Nat) (h : k + n ≤ blk.length) :
    rdNum (pre ++ blk ++ post) (pre.length + k) n = .ok (number blk k n) := by
  rw [rdNum, rdBytes_mid pre blk post k n h, number, le_eq]

/-- Conditional versions. -/
def putIf (b : Bool) (m : List UInt8) (k : Nat) (d : List UInt8) : List UInt8 := if b then put m k d else m
def orB (b : Bool) (m : List UInt8) (k n x : Nat) : List UInt8 := putIf b m k (leBytes n (number m k n ||| x))

theorem orAt_mid (pre blk post : List UInt8) (k n x : Nat) (h : k + n ≤ blk.length) :
    orAt (pre ++ blk ++ post) (pre.length + k) n x = .ok (pre ++ orB true blk k n x ++ post) := by
  rw [orAt, rdNum_mid pre blk post k n h]
  simp only [Res.bind]
  rw [store_mid _ _ _ _ _ (by rw [leBytes_length]; exact h)]
  rfl

theorem orIf_mid (b : Bool) (pre blk post : List UInt8) (k n x : Nat) (h : k + n ≤ blk.length) :
    orIf b (pre ++ blk ++ post) (pre.length + k) n x = .ok (pre ++ orB b blk k n x ++ post) := by
  cases b
  · rfl
  · rw [orIf, if_pos rfl, orAt_mid _ _ _ _ _ _ h]

theorem storeFlagged_mid (b : Bool) (pre blk post : List UInt8) (k : Nat) (d : List UInt8) (fk n x : Nat) (h : k + d.length ≤ blk.length) (hf : fk + n ≤ blk.length) :
    storeFlagged b (pre ++ blk ++ post) (pre.length + k) d (pre.length + fk) n x = .ok (pre ++ orB b (putIf b blk k d) fk n x ++ post) := by
  cases b
  · rfl
  · rw [storeFlagged, if_pos rfl, store_mid _ _ _ _ _ h]
    simp only [Res.bind]
    rw [orAt_mid _ _ _ _ _ _ (by rw [put_length h]; exact hf)]
    rfl

theorem putIf_length {b : Bool} {m : List UInt8} {k : Nat} {d : List UInt8} (h : k + d.length ≤ m.length) : (putIf b m k d).length = m.length := by
  cases b
  · rfl
  · exact put_length h

theorem orB_length {b : Bool} {m : List UInt8} {k n x : Nat} (h : k + n ≤ m.length) : (orB b m k n x).length = m.length :=
  putIf_length (by rw [leBytes_length]; exact h)

theorem field_putIf_ne {c : Bool} {b : List UInt8} {k : Nat} {d : List UInt8} {i n : Nat} (h : k + d.length ≤ b.length) (hd : i + n ≤ k ∨ k + d.length ≤ i) :
    field (putIf c b k d) i n = field b i n := by
  cases c
  · rfl
  · exact field_put_ne h hd

theorem field_putIf_same {c : Bool} {b : List UInt8} {k : Nat} {d : List UInt8} {n : Nat} (h : k + d.length ≤ b.length) (hn : n = d.length) :
    field (putIf c b k d) k n = if c then d else field b k n := by
  cases c
  · rfl
  · exact field_put_same h hn

theorem field_orB_ne {c : Bool} {b : List UInt8} {k m x : Nat} {i n : Nat} (h : k + m ≤ b.length) (hd : i + n ≤ k ∨ k + m ≤ i) :
    field (orB c b k m x) i n = field b i n := field_putIf_ne (by rw [leBytes_length]; exact h) (by rw [leBytes_length]; exact hd)

theorem number_orB_same {c : Bool} {b : List UInt8} {k n x : Nat} (h : k + n ≤ b.length) :
    number (orB c b k n x) k n = if c then (number b k n ||| x) % 256 ^ n else number b k n := by
  cases c
  · rfl
  · rw [number, orB, field_putIf_same (by rw [leBytes_length]; exact h) (leBytes_length _ _).symm, if_pos rfl, le_eq, leNat_leBytes, if_pos rfl]

theorem field_append_left {b r : List UInt8} {i n : Nat} (h : i + n ≤ b.length) : field (b ++ r) i n = field b i n := by
  rw [field, List.drop_append_of_le_length (by omega), List.take_append_of_le_length (by simp; omega)]; rfl

theorem number_append_left {b r : List UInt8} {i n : Nat} (h : i + n ≤ b.length) : number (b ++ r) i n = number b i n := by
  rw [number, field_append_left h]; rfl

/-! ### Setting -/

theorem okb {α β : Type} (a : α) (f : α → Res β) : (Res.ok a).bind f = f a := rfl

def aipBlock (a : AllowedIP) : List UInt8 :=
  put (put (put (List.replicate 24 0) 0 [famByte a.addr]) 4 (leBytes 4 a.cidr.toNat)) 8 (addrBytes a.addr)

theorem addrBytes_le (a : Addr) : 8 + (addrBytes a).length ≤ 24 := by cases a <;> simp [addrBytes]

theorem aipBlock_length (a : AllowedIP) : (aipBlock a).length = 24 := by
  have h := addrBytes_le a.addr
  unfold aipBlock
  rw [put_length, put_length, put_length, List.length_replicate] <;> simp [put_length, leBytes_length, h]

theorem setAip_mid (pre post : List UInt8) (a : AllowedIP) :
    setAip (pre ++ List.replicate 24 0 ++ post) pre.length a = .ok (pre ++ aipBlock a ++ post) := by
  have h := addrBytes_le a.addr
  have e1 : (put (List.replicate 24 0) 0 [famByte a.addr] : List UInt8).length = 24 := by rw [put_length] <;> simp
  have e2 : (put (put (List.replicate 24 0) 0 [famByte a.addr]) 4 (leBytes 4 a.cidr.toNat) : List UInt8).length = 24 := by
    rw [put_length, e1]; rw [leBytes_length, e1]; omega
  unfold setAip
  rw [store_mid0 _ _ _ _ (by simp), okb, store_mid _ _ _ _ _ (by rw [leBytes_length, e1]; omega), okb, store_mid _ _ _ _ _ (by rw [e2]; exact h)]
  rfl

theorem setAips_mid (l : List AllowedIP) : ∀ (pre post : List UInt8) (n : Nat),
    setAips (pre ++ List.replicate (24 * l.length) 0 ++ post) pre.length n l = .ok (pre ++ l.flatMap aipBlock ++ post, pre.length + 24 * l.length, n + l.length) := by
  induction l with
  | nil => intro pre post n; simp [setAips]
  | cons a l ih =>
    intro pre post n
    have e : pre ++ List.replicate (24 * (a :: l).length) 0 ++ post = pre ++ List.replicate 24 0 ++ (List.replicate (24 * l.length) 0 ++ post) := by
      rw [List.append_assoc, List.append_assoc, ← List.append_assoc (List.replicate 24 0), List.replicate_append_replicate, List.length_cons]
      congr 3; omega
    rw [setAips, e, setAip_mid, okb]
    have := ih (pre ++ aipBlock a) post (n + 1)
    rw [List.length_append, aipBlock_length] at this
    rw [← List.append_assoc, this]
    congr 2
    · simp
    · simp; omega

theorem readAip_block (a : AllowedIP) (h : a.cidr.toNat ≤ addrBits a.addr) : readAip (aipBlock a) = some a := by
  have hl := addrBytes_le a.addr
  have e0 : (List.replicate 24 0 : List UInt8).length = 24 := by simp
  have e1 : (put (List.replicate 24 0) 0 [famByte a.addr] : List UInt8).length = 24 := by rw [put_length] <;> simp
  have e2 : (put (put (List.replicate 24 0) 0 [famByte a.addr]) 4 (leBytes 4 a.cidr.toNat) : List UInt8).length = 24 := by
    rw [put_length, e1]; rw [leBytes_length, e1]; omega
  have hc : number (aipBlock a) 4 4 = a.cidr.toNat := by
    rw [number, aipBlock, field_put_ne (by rw [e2]; exact hl) (.inl (by omega)), field_put_same (by rw [leBytes_length, e1]; omega) (leBytes_length _ _).symm, le_eq, leNat_leBytes]
    have := a.cidr.toNat_lt
    omega
  have hf : number (aipBlock a) 0 1 = (famByte a.addr).toNat := by
    rw [number, aipBlock, field_put_ne (by rw [e2]; exact hl) (.inl (by omega)), field_put_ne (by rw [leBytes_length, e1]; omega) (.inl (by omega)), field_put_same (by simp) (by simp)]
    simp [le]
  obtain ⟨ad, c⟩ := a
  unfold readAip
  cases ad with
  | v4 b =>
    have hb : field (aipBlock ⟨.v4 b, c⟩) 8 4 = b.toList := by
      rw [aipBlock, field_put_same (by rw [e2]; exact hl) (by simp [addrBytes])]
      rfl
    simp only [addrBits] at h
    simp only [hc, hb, hf, famByte, UInt8.ofNat_toNat]
    rw [if_pos ⟨by decide, h⟩]
    rw [bytes?_toList]; rfl
  | v6 b =>
    have hb : field (aipBlock ⟨.v6 b, c⟩) 8 16 = b.toList := by
      rw [aipBlock, field_put_same (by rw [e2]; exact hl) (by simp [addrBytes])]
      rfl
    simp only [addrBits] at h
    simp only [hc, hb, hf, famByte, UInt8.ofNat_toNat]
    rw [if_neg (by simp), if_pos ⟨by decide, h⟩]
    rw [bytes?_toList]; rfl

theorem readAips_blocks (l : List AllowedIP) (h : ∀ a ∈ l, a.cidr.toNat ≤ addrBits a.addr) (r : List UInt8) :
    readAips l.length (l.flatMap aipBlock ++ r) = some (l, r) := by
  induction l with
  | nil => simp [readAips]
  | cons a l ih =>
    have ha := aipBlock_length a
    have e : (a :: l).flatMap aipBlock ++ r = aipBlock a ++ (l.flatMap aipBlock ++ r) := by simp
    rw [e, List.length_cons, readAips, if_neg (by simp; omega), List.take_left' ha, List.drop_left' ha, readAip_block a (h a (by simp)), ih fun a h' => h a (by simp [h'])]
    rfl

/-- What is stored for an endpoint: whether its flag is set, and the bytes. -/
def epFlag (p : Peer) : Bool :=
  ((epUnion p.endpoint).getD 1 0 = 2 ∨ (epUnion p.endpoint).getD 1 0 = 24) ∧ ((epUnion p.endpoint).getD 0 0).toNat ≤ 28
def epBytes (p : Peer) : List UInt8 := (epUnion p.endpoint).take ((epUnion p.endpoint).getD 0 0).toNat

theorem epBytes_le (p : Peer) : (epBytes p).length ≤ 28 := by
  unfold epBytes epUnion
  cases p.endpoint <;> simp [u32b]

/-- The 144 bytes of a peer before the number of its allowed IPs. -/
def peerBlock0 (p : Peer) : List UInt8 :=
  let m := put (List.replicate 144 0) 0 (leBytes 4 1)
  let m := put m 8 p.publicKey.toList
  let m := orB p.flags.hasPresharedKey (putIf p.flags.hasPresharedKey m 40 p.presharedKey.toList) 0 4 2
  let m := orB p.flags.hasKeepalive (putIf p.flags.hasKeepalive m 72 (leBytes 2 p.keepalive.toNat)) 0 4 4
  let m := orB (epFlag p) (putIf (epFlag p) m 76 (epBytes p)) 0 4 8
  let m := orB p.flags.replaceAllowedIPs m 0 4 16
  orB p.flags.removeMe m 0 4 32

def peerBlock (p : Peer) : List UInt8 := put (peerBlock0 p) 136 (leBytes 8 p.allowedIPs.length) ++ p.allowedIPs.flatMap aipBlock

theorem put_length' {b : List UInt8} {k : Nat} {d : List UInt8} {N : Nat} (hb : b.length = N) (h : k + d.length ≤ N) : (put b k d).length = N := by
  rw [put_length (by rw [hb]; exact h), hb]
theorem putIf_length' {c : Bool} {b : List UInt8} {k : Nat} {d : List UInt8} {N : Nat} (hb : b.length = N) (h : k + d.length ≤ N) : (putIf c b k d).length = N := by
  rw [putIf_length (by rw [hb]; exact h), hb]
theorem orB_length' {c : Bool} {b : List UInt8} {k n x : Nat} {N : Nat} (hb : b.length = N) (h : k + n ≤ N) : (orB c b k n x).length = N := by
  rw [orB_length (by rw [hb]; exact h), hb]

theorem orIf_mid0 (b : Bool) (pre blk post : List UInt8) (n x : Nat) (h : n ≤ blk.length) :
    orIf b (pre ++ blk ++ post) pre.length n x = .ok (pre ++ orB b blk 0 n x ++ post) := orIf_mid b pre blk post 0 n x (by omega)

theorem storeFlagged_mid0 (b : Bool) (pre blk post : List UInt8) (k : Nat) (d : List UInt8) (n x : Nat) (h : k + d.length ≤ blk.length) (hf : n ≤ blk.length) :
    storeFlagged b (pre ++ blk ++ post) (pre.length + k) d pre.length n x = .ok (pre ++ orB b (putIf b blk k d) 0 n x ++ post) :=
  storeFlagged_mid b pre blk post k d 0 n x h (by omega)

theorem key_length (k : Key) : k.toList.length = 32 := by simp

theorem setPeer_mid (pre post : List UInt8) (p : Peer) :
    setPeer (pre ++ List.replicate (144 + 24 * p.allowedIPs.length) 0 ++ post) pre.length p =
      .ok (pre ++ peerBlock p ++ post, pre.length + (peerBlock p).length) ∧ (peerBlock p).length = 144 + 24 * p.allowedIPs.length := by
  have e : pre ++ List.replicate (144 + 24 * p.allowedIPs.length) 0 ++ post = pre ++ List.replicate 144 0 ++ (List.replicate (24 * p.allowedIPs.length) 0 ++ post) := by
    simp [List.replicate_add]
  have he := epBytes_le p
  have L0 : (List.replicate 144 (0 : UInt8)).length = 144 := by simp
  have L1 := put_length' L0 (k := 0) (d := leBytes 4 1) (by rw [leBytes_length]; omega)
  have L2 := put_length' L1 (k := 8) (d := p.publicKey.toList) (by rw [key_length]; omega)
  have L3 := putIf_length' (c := p.flags.hasPresharedKey) L2 (k := 40) (d := p.presharedKey.toList) (by rw [key_length]; omega)
  have L4 := orB_length' (c := p.flags.hasPresharedKey) L3 (k := 0) (n := 4) (x := 2) (by omega)
  have L5 := putIf_length' (c := p.flags.hasKeepalive) L4 (k := 72) (d := leBytes 2 p.keepalive.toNat) (by rw [leBytes_length]; omega)
  have L6 := orB_length' (c := p.flags.hasKeepalive) L5 (k := 0) (n := 4) (x := 4) (by omega)
  have L7 := putIf_length' (c := epFlag p) L6 (k := 76) (d := epBytes p) (by omega)
  have L8 := orB_length' (c := epFlag p) L7 (k := 0) (n := 4) (x := 8) (by omega)
  have L9 := orB_length' (c := p.flags.replaceAllowedIPs) L8 (k := 0) (n := 4) (x := 16) (by omega)
  have L10 : (peerBlock0 p).length = 144 := orB_length' (c := p.flags.removeMe) L9 (k := 0) (n := 4) (x := 32) (by omega)
  have hlen : (peerBlock p).length = 144 + 24 * p.allowedIPs.length := by
    rw [peerBlock, List.length_append, put_length' L10 (by rw [leBytes_length]; omega)]
    congr 1
    induction p.allowedIPs with
    | nil => rfl
    | cons a l ih => simp [aipBlock_length, ih]; omega
  refine ⟨?_, hlen⟩
  unfold setPeer
  rw [e, store_mid0 _ _ _ _ (by rw [leBytes_length, L0]; omega), okb, store_mid _ _ _ _ _ (by rw [key_length, L1]; omega), okb,
    storeFlagged_mid0 _ _ _ _ _ _ _ _ (by rw [key_length, L2]; omega) (by rw [L2]; omega), okb,
    storeFlagged_mid0 _ _ _ _ _ _ _ _ (by rw [leBytes_length, L4]; omega) (by rw [L4]; omega), okb]
  dsimp only
  rw [show (epUnion p.endpoint).take ((epUnion p.endpoint).getD 0 0).toNat = epBytes p from rfl,
    show decide (((epUnion p.endpoint).getD 1 0 = 2 ∨ (epUnion p.endpoint).getD 1 0 = 24) ∧ ((epUnion p.endpoint).getD 0 0).toNat ≤ 28) = epFlag p from rfl,
    storeFlagged_mid0 _ _ _ _ _ _ _ _ (by rw [L6]; omega) (by rw [L6]; omega), okb, orIf_mid0 _ _ _ _ _ _ (by rw [L8]; omega), okb, orIf_mid0 _ _ _ _ _ _ (by rw [L9]; omega), okb]
  have hs := setAips_mid p.allowedIPs (pre ++ peerBlock0 p) post 0
  rw [List.length_append, L10] at hs
  have e2 : pre ++ peerBlock0 p ++ (List.replicate (24 * p.allowedIPs.length) 0 ++ post) = pre ++ peerBlock0 p ++ List.replicate (24 * p.allowedIPs.length) 0 ++ post := by simp
  rw [show (orB p.flags.removeMe _ 0 4 32) = peerBlock0 p from rfl, e2, hs, okb]
  dsimp only
  rw [List.append_assoc (pre ++ peerBlock0 p), store_mid _ _ _ _ _ (by rw [leBytes_length, L10]; omega), okb, hlen]
  congr 2
  · simp [peerBlock]
  · omega

/-- The fields of a peer block. -/
theorem peerBlock_fields (p : Peer) :
    field (peerBlock0 p) 8 32 = p.publicKey.toList ∧ field (peerBlock0 p) 40 32 = (if p.flags.hasPresharedKey then p.presharedKey.toList else List.replicate 32 0) ∧
    field (peerBlock0 p) 72 2 = (if p.flags.hasKeepalive then leBytes 2 p.keepalive.toNat else List.replicate 2 0) ∧
    (epFlag p = true → field (peerBlock0 p) 76 (epBytes p).length = epBytes p) ∧
    (∀ i n, 104 ≤ i → i + n ≤ 144 → field (peerBlock0 p) i n = List.replicate n 0) ∧
    number (peerBlock0 p) 0 4 = 1 + (if p.flags.hasPresharedKey then 2 else 0) + (if p.flags.hasKeepalive then 4 else 0) + (if epFlag p then 8 else 0) +
      (if p.flags.replaceAllowedIPs then 16 else 0) + (if p.flags.removeMe then 32 else 0) ∧ (peerBlock0 p).length = 144 := by
  have he := epBytes_le p
  have L0 : (List.replicate 144 (0 : UInt8)).length = 144 := by simp
  have b1 : 0 + (leBytes 4 1).length ≤ (List.replicate 144 (0 : UInt8)).length := by rw [leBytes_length, L0]; omega
  have L1 := put_length' L0 (k := 0) (d := leBytes 4 1) (by rw [leBytes_length]; omega)
  have b2 : 8 + p.publicKey.toList.length ≤ (put (List.replicate 144 0) 0 (leBytes 4 1)).length := by rw [key_length, L1]; omega
  have L2 := put_length' L1 (k := 8) (d := p.publicKey.toList) (by rw [key_length]; omega)
  have b3 : 40 + p.presharedKey.toList.length ≤ 144 := by rw [key_length]; omega
  have L3 := putIf_length' (c := p.flags.hasPresharedKey) L2 (k := 40) (d := p.presharedKey.toList) b3
  have L4 := orB_length' (c := p.flags.hasPresharedKey) L3 (k := 0) (n := 4) (x := 2) (by omega)
  have b5 : 72 + (leBytes 2 p.keepalive.toNat).length ≤ 144 := by rw [leBytes_length]; omega
  have L5 := putIf_length' (c := p.flags.hasKeepalive) L4 (k := 72) (d := leBytes 2 p.keepalive.toNat) b5
  have L6 := orB_length' (c := p.flags.hasKeepalive) L5 (k := 0) (n := 4) (x := 4) (by omega)
  have L7 := putIf_length' (c := epFlag p) L6 (k := 76) (d := epBytes p) (by omega)
  have L8 := orB_length' (c := epFlag p) L7 (k := 0) (n := 4) (x := 8) (by omega)
  have L9 := orB_length' (c := p.flags.replaceAllowedIPs) L8 (k := 0) (n := 4) (x := 16) (by omega)
  have L10 : (peerBlock0 p).length = 144 := orB_length' (c := p.flags.removeMe) L9 (k := 0) (n := 4) (x := 32) (by omega)
  -- behind the flags, the or-ed stores do not matter
  have step (i n : Nat) (hi : 4 ≤ i) : field (peerBlock0 p) i n = field (putIf (epFlag p) (putIf p.flags.hasKeepalive (putIf p.flags.hasPresharedKey
      (put (List.replicate 144 0) 8 p.publicKey.toList) 40 p.presharedKey.toList) 72 (leBytes 2 p.keepalive.toNat)) 76 (epBytes p)) i n := by
    have K2 := put_length' L0 (k := 8) (d := p.publicKey.toList) (by rw [key_length]; omega)
    have K3 := putIf_length' (c := p.flags.hasPresharedKey) K2 (k := 40) (d := p.presharedKey.toList) b3
    have K5 := putIf_length' (c := p.flags.hasKeepalive) K3 (k := 72) (d := leBytes 2 p.keepalive.toNat) b5
    have aux : ∀ (x y : List UInt8) (hx : x.length = 144) (hy : y.length = 144) (c : Bool) (k : Nat) (d : List UInt8), k + d.length ≤ 144 →
        (∀ i n, 4 ≤ i → field x i n = field y i n) → ∀ i n, 4 ≤ i → field (putIf c x k d) i n = field (putIf c y k d) i n := by
      intro x y hx hy c k d hk h i n hi
      cases c
      · exact h i n hi
      · have hxy : x.drop 4 = y.drop 4 := by
          have := h 4 144 (by omega)
          simpa [field, List.take_of_length_le, hx, hy] using this
        have : ∀ (z : List UInt8), z.length = 144 → field (put z k d) i n = (((put z k d).drop 4).drop (i - 4)).take n := by
          intro z _
          rw [field, List.drop_drop]; congr 2; omega
        rw [putIf, if_pos rfl, putIf, if_pos rfl, this x hx, this y hy]
        congr 2
        apply List.ext_getElem?
        intro j
        have hj : x[4 + j]? = y[4 + j]? := by rw [← List.getElem?_drop, hxy, List.getElem?_drop]
        simp only [put, List.getElem?_drop, List.getElem?_append, List.length_append, List.length_take, List.getElem?_take, hx, hy]
        by_cases h1 : 4 + j < min k 144 + d.length
        · simp only [h1, if_true]
          by_cases h2 : 4 + j < min k 144
          · simp only [h2, if_true, hj]
          · simp only [h2, if_false]
        · simp only [h1, if_false]
          have e : ∀ z : List UInt8, z[k + d.length + (4 + j - (min k 144 + d.length))]? = z[4 + j]? := by intro z; congr 1; omega
          rw [e, e, hj]
    have orNe : ∀ (x : List UInt8) (c : Bool) (y : Nat), x.length = 144 → ∀ i n, 4 ≤ i → field (orB c x 0 4 y) i n = field x i n := by
      intro x c y hx i n hi
      exact field_orB_ne (by omega) (.inr (by omega))
    unfold peerBlock0
    rw [orNe _ _ _ L9 _ _ hi, orNe _ _ _ L8 _ _ hi, orNe _ _ _ L7 _ _ hi]
    refine aux _ _ L6 K5 _ _ _ (by omega) (fun i n hi => ?_) i n hi
    rw [orNe _ _ _ L5 _ _ hi]
    refine aux _ _ L4 K3 _ _ _ b5 (fun i n hi => ?_) i n hi
    rw [orNe _ _ _ L3 _ _ hi]
    refine aux _ _ L2 K2 _ _ _ b3 (fun i n hi => ?_) i n hi
    refine aux _ _ L1 L0 true _ _ (by rw [key_length]; omega) (fun i n hi => ?_) i n hi
    exact field_put_ne b1 (.inr (by rw [leBytes_length]; omega))
  have K2 := put_length' L0 (k := 8) (d := p.publicKey.toList) (by rw [key_length]; omega)
  have K3 := putIf_length' (c := p.flags.hasPresharedKey) K2 (k := 40) (d := p.presharedKey.toList) b3
  have K5 := putIf_length' (c := p.flags.hasKeepalive) K3 (k := 72) (d := leBytes 2 p.keepalive.toNat) b5
  have kl := key_length p.publicKey
  have pl := key_length p.presharedKey
  have ll := leBytes_length 2 p.keepalive.toNat
  refine ⟨?_, ?_, ?_, ?_, ?_, ?_, L10⟩
  · rw [step 8 32 (by omega), field_putIf_ne (by omega) (.inl (by omega)), field_putIf_ne (by omega) (.inl (by omega)), field_putIf_ne (by omega) (.inl (by omega)),
      field_put_same (by omega) kl.symm]
  · rw [step 40 32 (by omega), field_putIf_ne (by omega) (.inl (by omega)), field_putIf_ne (by omega) (.inl (by omega)), field_putIf_same (by omega) pl.symm,
      field_put_ne (by omega) (.inr (by omega)), field_zeros (by omega)]
  · rw [step 72 2 (by omega), field_putIf_ne (by omega) (.inl (by omega)), field_putIf_same (by omega) ll.symm, field_putIf_ne (by omega) (.inr (by omega)),
      field_put_ne (by omega) (.inr (by omega)), field_zeros (by omega)]
  · intro h
    rw [step 76 _ (by omega), field_putIf_same (by omega) rfl, if_pos h]
  · intro i n h1 h2
    rw [step i n (by omega), field_putIf_ne (by omega) (.inr (by omega)), field_putIf_ne (by omega) (.inr (by omega)), field_putIf_ne (by omega) (.inr (by omega)),
      field_put_ne (by omega) (.inr (by omega)), field_zeros (by omega)]
  · have n1 : number (put (put (List.replicate 144 0) 0 (leBytes 4 1)) 8 p.publicKey.toList) 0 4 = 1 := by
      rw [number, field_put_ne b2 (.inl (by omega)), field_put_same b1 (leBytes_length _ _).symm]; rfl
    have nIf : ∀ (x : List UInt8) (c : Bool) (k : Nat) (d : List UInt8), x.length = 144 → 4 ≤ k → k + d.length ≤ 144 → number (putIf c x k d) 0 4 = number x 0 4 := by
      intro x c k d h1 h2 h3
      rw [number, field_putIf_ne (by omega) (.inl (by omega))]; rfl
    unfold peerBlock0
    rw [number_orB_same (by omega), number_orB_same (by omega), number_orB_same (by omega), nIf _ _ _ _ L6 (by omega) (by omega), number_orB_same (by omega),
      nIf _ _ _ _ L4 (by omega) b5, number_orB_same (by omega), nIf _ _ _ _ L2 (by omega) b3, n1]
    cases p.flags.hasPresharedKey <;> cases p.flags.hasKeepalive <;> cases epFlag p <;> cases p.flags.replaceAllowedIPs <;> cases p.flags.removeMe <;> rfl

/-- What the kernel is to read for a peer. -/
def wantPeer (p : Peer) : IoPeer where
  key := some p.publicKey
  psk := if p.flags.hasPresharedKey then some p.presharedKey else none
  keepalive := if p.flags.hasKeepalive then some p.keepalive else none
  endpoint := if p.endpoint = .unset then none else some p.endpoint
  replaceIPs := p.flags.replaceAllowedIPs
  remove := p.flags.removeMe
  ips := p.allowedIPs

theorem field_field {m : List UInt8} {i n a b : Nat} (h : a + b ≤ n) : field (field m i n) a b = field m (i + a) b := by
  rw [field, field, field, List.drop_take, List.drop_drop, List.take_take, Nat.min_eq_left (by omega)]

theorem bePort_eq (p : UInt16) : bePort [UInt8.ofNat (p.toNat / 256), UInt8.ofNat p.toNat] = p := by
  have := p.toNat_lt
  apply UInt16.toNat_inj.1
  simp only [bePort, List.reverse_cons, List.reverse_nil, List.nil_append, List.cons_append, le, UInt16.toNat_ofNat', UInt8.toNat_ofNat']
  omega

theorem le_u32b (x : UInt32) : UInt32.ofNat (le (u32b x.toNat)) = x := by
  have := x.toNat_lt
  apply UInt32.toNat_inj.1
  simp only [u32b, le, UInt32.toNat_ofNat', UInt8.toNat_ofNat']
  omega

theorem readBsdSockaddr_in4 (m : List UInt8) (a : IP4) (p : UInt16)
    (h : field m 0 16 = [16, 2, UInt8.ofNat (p.toNat / 256), UInt8.ofNat p.toNat] ++ a.toList ++ List.replicate 8 0) : readBsdSockaddr m = some (.in4 a p) := by
  have sub (i n : Nat) (hi : i + n ≤ 16) : field m i n = field (field m 0 16) i n := by rw [field_field hi, Nat.zero_add]
  have al : a.toList.length = 4 := by simp
  unfold readBsdSockaddr number
  rw [sub 0 1 (by omega), sub 1 1 (by omega), sub 4 4 (by omega), sub 2 2 (by omega), h]
  rw [if_pos ⟨rfl, rfl⟩]
  have : field ([16, 2, UInt8.ofNat (p.toNat / 256), UInt8.ofNat p.toNat] ++ a.toList ++ List.replicate 8 0) 4 4 = a.toList := by
    simp [field, al]
  rw [this, bytes?_toList]
  have : field ([16, 2, UInt8.ofNat (p.toNat / 256), UInt8.ofNat p.toNat] ++ a.toList ++ List.replicate 8 0) 2 2 = [UInt8.ofNat (p.toNat / 256), UInt8.ofNat p.toNat] := rfl
  rw [this, bePort_eq]
  rfl

theorem readBsdSockaddr_in6 (m : List UInt8) (a : IP6) (p : UInt16) (fl sc : UInt32)
    (h : field m 0 28 = [28, 24, UInt8.ofNat (p.toNat / 256), UInt8.ofNat p.toNat] ++ u32b fl.toNat ++ a.toList ++ u32b sc.toNat) : readBsdSockaddr m = some (.in6 a p fl sc) := by
  have sub (i n : Nat) (hi : i + n ≤ 28) : field m i n = field (field m 0 28) i n := by rw [field_field hi, Nat.zero_add]
  have al : a.toList.length = 16 := by simp
  unfold readBsdSockaddr number
  rw [sub 0 1 (by omega), sub 1 1 (by omega), sub 4 4 (by omega), sub 2 2 (by omega), sub 8 16 (by omega), sub 24 4 (by omega), h]
  generalize hx : [28, 24, UInt8.ofNat (p.toNat / 256), UInt8.ofNat p.toNat] ++ u32b fl.toNat ++ a.toList ++ u32b sc.toNat = x
  have hx' : x = [28, 24, UInt8.ofNat (p.toNat / 256), UInt8.ofNat p.toNat] ++ u32b fl.toNat ++ (a.toList ++ u32b sc.toNat) := by rw [← hx]; simp
  have h0 : field x 0 1 = [28] := by rw [hx']; rfl
  have h1 : field x 1 1 = [24] := by rw [hx']; rfl
  have h2 : field x 2 2 = [UInt8.ofNat (p.toNat / 256), UInt8.ofNat p.toNat] := by rw [hx']; rfl
  have h4 : field x 4 4 = u32b fl.toNat := by rw [hx']; rfl
  have h8 : field x 8 16 = a.toList := by rw [hx', field, List.drop_left' (by simp [u32b]), List.take_left' al]
  have h24 : field x 24 4 = u32b sc.toNat := by
    rw [hx', ← List.append_assoc, field, List.drop_left' (by simp [u32b])]; rfl
  rw [h0, h1, h2, h4, h8, h24, if_neg (by decide), if_pos (by decide), bytes?_toList, bePort_eq, le_u32b, le_u32b]
  rfl

theorem epFlag_iff (p : Peer) : epFlag p = true ↔ p.endpoint ≠ .unset := by
  unfold epFlag epUnion
  cases p.endpoint <;> simp

theorem take_replicate_zero_field (a : IP4) (p : UInt16) :
    (epUnion (.in4 a p)).take ((epUnion (.in4 a p)).getD 0 0).toNat = [16, 2, UInt8.ofNat (p.toNat / 256), UInt8.ofNat p.toNat] ++ a.toList ++ List.replicate 8 0 := by
  have al : a.toList.length = 4 := by simp
  have : ((epUnion (.in4 a p)).getD 0 0).toNat = 16 := rfl
  rw [this, epUnion, List.take_append, List.take_of_length_le (by simp)]
  simp

theorem readEndpoint_block (p : Peer) (h : epFlag p = true) (m : List UInt8) (hm : field m 0 (epBytes p).length = epBytes p) : readBsdSockaddr m = some p.endpoint := by
  rw [epFlag_iff] at h
  unfold epBytes at hm
  cases he : p.endpoint with
  | unset => exact absurd he h
  | in4 a pt =>
    rw [he, take_replicate_zero_field] at hm
    apply readBsdSockaddr_in4
    have : ([16, 2, UInt8.ofNat (pt.toNat / 256), UInt8.ofNat pt.toNat] ++ a.toList ++ List.replicate 8 0).length = 16 := by simp
    rwa [this] at hm
  | in6 a pt fl sc =>
    have hl : (epUnion (.in6 a pt fl sc)).length = 28 := by simp [epUnion, u32b]
    rw [he, List.take_of_length_le (by rw [hl]; exact Nat.le_refl 28), hl] at hm
    exact readBsdSockaddr_in6 _ _ _ _ _ hm

theorem readPeer_block (p : Peer) (hn : p.allowedIPs.length < 2 ^ 64) (hip : ∀ a ∈ p.allowedIPs, a.cidr.toNat ≤ addrBits a.addr) (r : List UInt8) :
    readPeer (peerBlock p ++ r) = some (wantPeer p, r) := by
  obtain ⟨f1, f2, f3, f4, f5, f6, L⟩ := peerBlock_fields p
  have hb : 136 + (leBytes 8 p.allowedIPs.length).length ≤ (peerBlock0 p).length := by rw [leBytes_length, L]; omega
  have Lc : (put (peerBlock0 p) 136 (leBytes 8 p.allowedIPs.length)).length = 144 := by rw [put_length hb, L]
  have fld (i n : Nat) (h : i + n ≤ 136) : field (peerBlock p ++ r) i n = field (peerBlock0 p) i n := by
    rw [peerBlock, List.append_assoc, field_append_left (by omega), field_put_ne hb (.inl h)]
  have num (i n : Nat) (h : i + n ≤ 136) : number (peerBlock p ++ r) i n = number (peerBlock0 p) i n := by rw [number, fld i n h]; rfl
  have zero (i : Nat) (h1 : 104 ≤ i) (h2 : i + 8 ≤ 136) : number (peerBlock p ++ r) i 8 = 0 := by
    rw [num i 8 h2, number, f5 i 8 h1 (by omega)]; rfl
  have cnt : number (peerBlock p ++ r) 136 8 = p.allowedIPs.length := by
    rw [number, peerBlock, List.append_assoc, field_append_left (by omega), field_put_same hb (leBytes_length _ _).symm, le_eq, leNat_leBytes, Nat.mod_eq_of_lt (by omega)]
  have rest : (peerBlock p ++ r).drop 144 = p.allowedIPs.flatMap aipBlock ++ r := by rw [peerBlock, List.append_assoc, List.drop_left' Lc]
  have ka : field (peerBlock p ++ r) 72 2 = _ := (fld 72 2 (by omega)).trans f3
  rw [readPeer, if_neg (by rw [peerBlock]; simp; omega)]
  dsimp only
  rw [fld 8 32 (by omega), fld 40 32 (by omega), fld 76 28 (by omega), num 0 4 (by omega), zero 104 (by omega) (by omega), zero 112 (by omega) (by omega), zero 120 (by omega) (by omega),
    zero 128 (by omega) (by omega), cnt, rest, f1, f2, f6, readAips_blocks _ hip, number, ka]
  have hep : epFlag p = true → readBsdSockaddr (field (peerBlock0 p) 76 28) = some p.endpoint := by
    intro h
    apply readEndpoint_block p h
    have := epBytes_le p
    rw [field_field (a := 0) (b := (epBytes p).length) (by omega)]
    exact f4 h
  have hep' : epFlag p = false → p.endpoint = .unset := by
    intro h
    by_contra hc
    rw [(epFlag_iff p).2 hc] at h; cases h
  have hka : UInt16.ofNat (le (leBytes 2 p.keepalive.toNat)) = p.keepalive := by
    rw [le_eq, leNat_leBytes]
    have := p.keepalive.toNat_lt
    rw [Nat.mod_eq_of_lt (by omega), UInt16.ofNat_toNat]
  have hpub : bytes? 32 p.publicKey.toList = some p.publicKey := bytes?_toList _
  have hpsk : bytes? 32 p.presharedKey.toList = some p.presharedKey := bytes?_toList _
  rw [hpub]
  unfold wantPeer
  cases h1 : p.flags.hasPresharedKey <;> cases h2 : p.flags.hasKeepalive <;> cases h3 : epFlag p <;> cases h4 : p.flags.replaceAllowedIPs <;> cases h5 : p.flags.removeMe <;>
    first
    | (have h6 := (epFlag_iff p).1 h3
       rw [hep h3]
       simp [flagged, h6, hpsk, hka, Nat.testBit, signed64])
    | (have h6 := hep' h3
       simp [flagged, h6, hpsk, hka, Nat.testBit, signed64])

def peersSize (l : List Peer) : Nat := (l.map fun p => 144 + 24 * p.allowedIPs.length).sum

theorem setPeers_mid (l : List Peer) : ∀ (pre post : List UInt8) (n : Nat),
    setPeers (pre ++ List.replicate (peersSize l) 0 ++ post) pre.length n l = .ok (pre ++ l.flatMap peerBlock ++ post, n + l.length) := by
  induction l with
  | nil => intro pre post n; simp [setPeers, peersSize]
  | cons p l ih =>
    intro pre post n
    have e : pre ++ List.replicate (peersSize (p :: l)) 0 ++ post =
        pre ++ List.replicate (144 + 24 * p.allowedIPs.length) 0 ++ (List.replicate (peersSize l) 0 ++ post) := by
      rw [peersSize, List.map_cons, List.sum_cons, List.replicate_add, peersSize]
      simp only [List.append_assoc]
    rw [setPeers, e, (setPeer_mid _ _ p).1, okb]
    have := ih (pre ++ peerBlock p) post (n + 1)
    rw [List.length_append] at this
    dsimp only
    rw [← List.append_assoc, this]
    congr 2
    · simp
    · simp; omega

theorem readPeers_blocks (l : List Peer) (hn : ∀ p ∈ l, p.allowedIPs.length < 2 ^ 64) (hip : ∀ p ∈ l, ∀ a ∈ p.allowedIPs, a.cidr.toNat ≤ addrBits a.addr) (r : List UInt8) :
    readPeers l.length (l.flatMap peerBlock ++ r) = some (l.map wantPeer, r) := by
  induction l with
  | nil => simp [readPeers]
  | cons p l ih =>
    have e : (p :: l).flatMap peerBlock ++ r = peerBlock p ++ (l.flatMap peerBlock ++ r) := by simp
    rw [e, List.length_cons, readPeers, readPeer_block p (hn p (by simp)) (hip p (by simp))]
    simp only [Option.bind_some]
    rw [ih (fun p h => hn p (by simp [h])) fun p h => hip p (by simp [h])]
    rfl

theorem setSize_eq (d : Device) : setSize d = 80 + peersSize d.peers := by
  have inner : ∀ (l : List AllowedIP) (n : Nat), l.foldl (fun n _ => n + 24) n = n + 24 * l.length := by
    intro l
    induction l with
    | nil => simp
    | cons a l ih => intro n; rw [List.foldl_cons, ih, List.length_cons]; omega
  have outer : ∀ (l : List Peer) (n : Nat), l.foldl (fun n p => p.allowedIPs.foldl (fun n _ => n + 24) (n + 144)) n = n + peersSize l := by
    intro l
    induction l with
    | nil => simp [peersSize]
    | cons p l ih => intro n; rw [List.foldl_cons, inner, ih, peersSize, peersSize, List.map_cons, List.sum_cons]; omega
  exact outer d.peers 80

/-- The first 80 bytes before the number of peers. -/
def ifaceBlock0 (d : Device) : List UInt8 :=
  let m := orB d.flags.hasPrivateKey (putIf d.flags.hasPrivateKey (List.replicate 80 0) 40 d.privateKey.toList) 0 1 2
  let m := orB d.flags.hasListenPort (putIf d.flags.hasListenPort m 2 (leBytes 2 d.listenPort.toNat)) 0 1 4
  let m := orB d.flags.hasFwmark (putIf d.flags.hasFwmark m 4 (leBytes 4 d.fwmark.toNat)) 0 1 8
  orB d.flags.replacePeers m 0 1 16

def ifaceBlock (d : Device) : List UInt8 := put (ifaceBlock0 d) 72 (leBytes 8 d.peers.length) ++ d.peers.flatMap peerBlock

/-- What the kernel is to read. -/
def wantIface (d : Device) : IoIface where
  privateKey := if d.flags.hasPrivateKey then some d.privateKey else none
  port := if d.flags.hasListenPort then some d.listenPort else none
  rtable := if d.flags.hasFwmark then some d.fwmark else none
  replacePeers := d.flags.replacePeers
  peers := d.peers.map wantPeer

theorem setBuffer_spec (d : Device) : setBuffer d = .ok (ifaceBlock d) ∧ (ifaceBlock d).length = setSize d ∧
    ((∀ p ∈ d.peers, p.allowedIPs.length < 2 ^ 64) → d.peers.length < 2 ^ 64 → (∀ p ∈ d.peers, ∀ a ∈ p.allowedIPs, a.cidr.toNat ≤ addrBits a.addr) →
      readIface (ifaceBlock d) = some (wantIface d)) := by
  have kl := key_length d.privateKey
  have ll := leBytes_length 2 d.listenPort.toNat
  have l4 := leBytes_length 4 d.fwmark.toNat
  have l8 := leBytes_length 8 d.peers.length
  have L0 : (List.replicate 80 (0 : UInt8)).length = 80 := by simp
  have L1 := putIf_length' (c := d.flags.hasPrivateKey) L0 (k := 40) (d := d.privateKey.toList) (by omega)
  have L2 := orB_length' (c := d.flags.hasPrivateKey) L1 (k := 0) (n := 1) (x := 2) (by omega)
  have L3 := putIf_length' (c := d.flags.hasListenPort) L2 (k := 2) (d := leBytes 2 d.listenPort.toNat) (by omega)
  have L4 := orB_length' (c := d.flags.hasListenPort) L3 (k := 0) (n := 1) (x := 4) (by omega)
  have L5 := putIf_length' (c := d.flags.hasFwmark) L4 (k := 4) (d := leBytes 4 d.fwmark.toNat) (by omega)
  have L6 := orB_length' (c := d.flags.hasFwmark) L5 (k := 0) (n := 1) (x := 8) (by omega)
  have L7 : (ifaceBlock0 d).length = 80 := orB_length' (c := d.flags.replacePeers) L6 (k := 0) (n := 1) (x := 16) (by omega)
  have L8 := put_length' L7 (k := 72) (d := leBytes 8 d.peers.length) (by omega)
  have plen : (d.peers.flatMap peerBlock).length = peersSize d.peers := by
    induction d.peers with
    | nil => rfl
    | cons p l ih => simp [(setPeer_mid [] [] p).2, ih, peersSize]
  refine ⟨?_, ?_, ?_⟩
  · have st (b : Bool) (blk post : List UInt8) (k : Nat) (d : List UInt8) (n x : Nat) (h : k + d.length ≤ blk.length) (hf : n ≤ blk.length) :
        storeFlagged b (blk ++ post) k d 0 n x = .ok (orB b (putIf b blk k d) 0 n x ++ post) := by
      have := storeFlagged_mid0 b [] blk post k d n x h hf
      simpa using this
    have oi := orIf_mid0 d.flags.replacePeers [] (orB d.flags.hasFwmark (putIf d.flags.hasFwmark (orB d.flags.hasListenPort (putIf d.flags.hasListenPort
      (orB d.flags.hasPrivateKey (putIf d.flags.hasPrivateKey (List.replicate 80 0) 40 d.privateKey.toList) 0 1 2) 2 (leBytes 2 d.listenPort.toNat)) 0 1 4) 4
      (leBytes 4 d.fwmark.toNat)) 0 1 8) (List.replicate (peersSize d.peers) 0) 1 16 (by omega)
    rw [List.nil_append, List.length_nil] at oi
    have hp := setPeers_mid d.peers (ifaceBlock0 d) [] 0
    rw [List.append_nil, List.append_nil, L7, Nat.zero_add] at hp
    have hs := store_mid [] (ifaceBlock0 d) (d.peers.flatMap peerBlock) 72 (leBytes 8 d.peers.length) (by omega)
    rw [List.nil_append, List.length_nil, Nat.zero_add] at hs
    unfold setBuffer
    rw [setSize_eq, List.replicate_add]
    dsimp only
    rw [st _ _ _ _ _ _ _ (by omega) (by omega), okb, st _ _ _ _ _ _ _ (by omega) (by omega), okb, st _ _ _ _ _ _ _ (by omega) (by omega), okb, oi, okb, List.nil_append]
    rw [show orB d.flags.replacePeers _ 0 1 16 = ifaceBlock0 d from rfl, hp, okb, hs]
    rfl
  · rw [ifaceBlock, List.length_append, L8, plen, setSize_eq]
  · intro h1 h2 h3
    have hb : 72 + (leBytes 8 d.peers.length).length ≤ (ifaceBlock0 d).length := by omega
    have fld (i n : Nat) (h : i + n ≤ 72) : field (ifaceBlock d) i n = field (ifaceBlock0 d) i n := by
      rw [ifaceBlock, field_append_left (by omega), field_put_ne hb (.inl h)]
    have cnt : number (ifaceBlock d) 72 8 = d.peers.length := by
      rw [number, ifaceBlock, field_append_left (by omega), field_put_same hb l8.symm, le_eq, leNat_leBytes, Nat.mod_eq_of_lt (by omega)]
    have rest : (ifaceBlock d).drop 80 = d.peers.flatMap peerBlock ++ [] := by rw [ifaceBlock, List.drop_left' L8, List.append_nil]
    have f40 : field (ifaceBlock0 d) 40 32 = if d.flags.hasPrivateKey then d.privateKey.toList else List.replicate 32 0 := by
      unfold ifaceBlock0
      rw [field_orB_ne (by omega) (.inr (by omega)), field_orB_ne (by omega) (.inr (by omega)), field_putIf_ne (by omega) (.inr (by omega)), field_orB_ne (by omega) (.inr (by omega)),
        field_putIf_ne (by omega) (.inr (by omega)), field_orB_ne (by omega) (.inr (by omega)), field_putIf_same (by omega) kl.symm, field_zeros (by omega)]
    have f2 : field (ifaceBlock0 d) 2 2 = if d.flags.hasListenPort then leBytes 2 d.listenPort.toNat else List.replicate 2 0 := by
      unfold ifaceBlock0
      rw [field_orB_ne (by omega) (.inr (by omega)), field_orB_ne (by omega) (.inr (by omega)), field_putIf_ne (by omega) (.inl (by omega)), field_orB_ne (by omega) (.inr (by omega)),
        field_putIf_same (by omega) ll.symm, field_orB_ne (by omega) (.inr (by omega)), field_putIf_ne (by omega) (.inl (by omega)), field_zeros (by omega)]
    have f4 : field (ifaceBlock0 d) 4 4 = if d.flags.hasFwmark then leBytes 4 d.fwmark.toNat else List.replicate 4 0 := by
      unfold ifaceBlock0
      rw [field_orB_ne (by omega) (.inr (by omega)), field_orB_ne (by omega) (.inr (by omega)), field_putIf_same (by omega) l4.symm, field_orB_ne (by omega) (.inr (by omega)),
        field_putIf_ne (by omega) (.inr (by omega)), field_orB_ne (by omega) (.inr (by omega)), field_putIf_ne (by omega) (.inl (by omega)), field_zeros (by omega)]
    have f0 : number (ifaceBlock0 d) 0 1 = (if d.flags.hasPrivateKey then 2 else 0) + (if d.flags.hasListenPort then 4 else 0) + (if d.flags.hasFwmark then 8 else 0) +
        (if d.flags.replacePeers then 16 else 0) := by
      have nIf : ∀ (x : List UInt8) (c : Bool) (k : Nat) (d : List UInt8), x.length = 80 → 1 ≤ k → k + d.length ≤ 80 → number (putIf c x k d) 0 1 = number x 0 1 := by
        intro x c k d h1 h2 h3
        rw [number, field_putIf_ne (by omega) (.inl (by omega))]; rfl
      unfold ifaceBlock0
      rw [number_orB_same (by omega), number_orB_same (by omega), nIf _ _ _ _ L4 (by omega) (by omega), number_orB_same (by omega),
        nIf _ _ _ _ L2 (by omega) (by omega), number_orB_same (by omega), nIf _ _ _ _ L0 (by omega) (by omega), number, field_zeros (by omega)]
      cases d.flags.hasPrivateKey <;> cases d.flags.hasListenPort <;> cases d.flags.hasFwmark <;> cases d.flags.replacePeers <;> rfl
    have n0 : number (ifaceBlock d) 0 1 = _ := (congrArg le (fld 0 1 (by omega))).trans f0
    have n2 : number (ifaceBlock d) 2 2 = _ := congrArg le ((fld 2 2 (by omega)).trans f2)
    have n4 : number (ifaceBlock d) 4 4 = _ := congrArg le ((fld 4 4 (by omega)).trans f4)
    have hport : UInt16.ofNat (le (leBytes 2 d.listenPort.toNat)) = d.listenPort := by
      rw [le_eq, leNat_leBytes]
      have := d.listenPort.toNat_lt
      rw [Nat.mod_eq_of_lt (by omega), UInt16.ofNat_toNat]
    have hmark : UInt32.ofNat (le (leBytes 4 d.fwmark.toNat)) = d.fwmark := by
      rw [le_eq, leNat_leBytes]
      have := d.fwmark.toNat_lt
      rw [Nat.mod_eq_of_lt (by omega), UInt32.ofNat_toNat]
    have hpriv : bytes? 32 d.privateKey.toList = some d.privateKey := bytes?_toList _
    rw [readIface, if_neg (by rw [ifaceBlock]; simp; omega)]
    dsimp only
    rw [fld 40 32 (by omega), f40, n0, n2, n4, cnt, rest, readPeers_blocks _ h1 h3]
    unfold wantIface
    cases d.flags.hasPrivateKey <;> cases d.flags.hasListenPort <;> cases d.flags.hasFwmark <;> cases d.flags.replacePeers <;> simp [flagged, hpriv, hport, hmark, Nat.testBit]

end WG.Obsd
