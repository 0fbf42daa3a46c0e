import Verif.Proof.NetlinkRecv
/-! Reading arbitrary bytes (C32). -/
namespace WG
open Spec

theorem bind_ok {α β : Type} {r : Res α} {f : α → Res β} (h1 : ∃ v, r = .ok v) (h2 : ∀ v, r = .ok v → ∃ w, f v = .ok w) : ∃ w, r.bind f = .ok w := by
  obtain ⟨v, hv⟩ := h1
  obtain ⟨w, hw⟩ := h2 v hv
  exact ⟨w, by rw [hv, okb, hw]⟩

/-- The attribute at `x` lies in the buffer. -/
structure Inside (mem : List UInt8) (x : Nat) : Prop where
  four : 4 ≤ attrLen mem x
  inside : x + attrLen mem x ≤ mem.length

theorem attrLen_lt (mem : List UInt8) (x : Nat) : attrLen mem x < 65536 := le_take_lt (mem.drop x) 2

namespace Inside
variable {mem : List UInt8} {x : Nat}

theorem rdLen (h : Inside mem x) : rdNum mem x 2 = .ok (attrLen mem x) := by
  have := h.four; have := h.inside; rw [rdNum_ok (by omega)]; rfl

theorem type (h : Inside mem x) : attrType mem x = .ok (le ((mem.drop (x + 2)).take 2) % 0x4000) := by
  have := h.four; have := h.inside; rw [attrType, rdNum_ok (by omega), okb]

theorem plen (h : Inside mem x) : attrPayloadLen mem x = .ok (attrLen mem x - 4) := by
  have h1 := h.four
  have h2 := attrLen_lt mem x
  rw [attrPayloadLen, h.rdLen, okb, Res.ok.injEq]
  omega

theorem bytes (h : Inside mem x) {n : Nat} (hn : n ≤ attrLen mem x - 4) : ∃ b, rdBytes mem (x + 4) n = .ok b := by
  have := h.four; have := h.inside
  exact ⟨_, rdBytes_ok (by omega)⟩

theorem num (h : Inside mem x) {n : Nat} (hn : n ≤ attrLen mem x - 4) : ∃ b, rdNum mem (x + 4) n = .ok b := by
  have := h.four; have := h.inside
  exact ⟨_, rdNum_ok (by omega)⟩

theorem exact (h : Inside mem x) (n : Nat) : ∃ v, exactPayload mem x n = .ok v := by
  rw [exactPayload, h.plen, okb]
  split
  · exact bind_ok (h.bytes (by omega)) fun v _ => ⟨_, rfl⟩
  · exact ⟨_, rfl⟩

theorem fixed (h : Inside mem x) (n : Nat) : ∃ v, fixedNum mem x n = .ok v := by
  rw [fixedNum, validFixed, h.plen, okb, okb]
  split
  · rename_i hn; exact bind_ok (h.num (by simp at hn; omega)) fun v _ => ⟨_, rfl⟩
  · exact ⟨_, rfl⟩

theorem took_ok {σ : Type} (v : Option Nat) (e : Nat) (st : σ) (f : Nat → σ) : ∃ w, took v e st f = .ok w := by
  cases v <;> exact ⟨_, rfl⟩

theorem fixed_took (h : Inside mem x) (n : Nat) {σ : Type} (e : Nat) (st : σ) (f : Nat → σ) : ∃ w, ((fixedNum mem x n).bind fun v => took v e st f) = .ok w :=
  bind_ok (h.fixed n) fun v _ => took_ok v e st f

end Inside

/-- Walking attributes reads only them, and ends. -/
theorem walk_safe {σ : Type} (mem : List UInt8) (hm : mem.length < 2 ^ 30) (tail : Nat) (ht : tail ≤ mem.length) (a : Nat) (cb : Nat → σ → Res (Int × σ))
    (hcb : ∀ x st, AttrAt mem a tail x → Inside mem x → x + attrLen mem x ≤ tail → ∃ v, cb x st = .ok v) :
    ∀ (fuel x : Nat) (ret : Int) (st : σ), AttrAt mem a tail x → x ≤ tail + 4 → tail - x < fuel → ∃ v, walk mem tail cb fuel x ret st = .ok v := by
  intro fuel
  induction fuel with
  | zero => intro x ret st _ _ h; omega
  | succ fuel ih =>
    intro x ret st hx h1 h2
    rw [walk, toInt32_of (by omega) (by omega), attrOk]
    by_cases h4 : (tail : Int) - x < 4
    · rw [if_pos h4, okb]; exact ⟨_, rfl⟩
    · rw [if_neg h4, rdNum_ok (by omega), okb, okb]
      split
      · exact ⟨_, rfl⟩
      · rename_i hok
        have hok' : 4 ≤ attrLen mem x ∧ x + attrLen mem x ≤ tail := by
          simp only [Bool.not_eq_true', decide_eq_false_iff_not, Classical.not_not] at hok
          have := hok.1; have := hok.2
          simp only [attrLen]; omega
        have hin : Inside mem x := ⟨hok'.1, by omega⟩
        refine bind_ok (hcb x st hx hin hok'.2) fun v _ => ?_
        obtain ⟨r, st'⟩ := v
        simp only
        split
        · exact ⟨_, rfl⟩
        · rw [okb]
          change ∃ w, walk mem tail cb fuel (x + pad4 (attrLen mem x)) r st' = .ok w
          have p1 := pad4_ge (attrLen mem x)
          have p2 := pad4_lt (attrLen mem x)
          exact ih _ _ _ (.next x hx hok'.1 hok'.2) (by omega) (by omega)

theorem parseNested_safe {σ : Type} (mem : List UInt8) (hm : mem.length < 2 ^ 30) {a : Nat} (ha : Inside mem a) (cb : Nat → σ → Res (Int × σ))
    (hcb : ∀ x st, Inside mem x → ∃ v, cb x st = .ok v) (st : σ) : ∃ v, parseNested mem a cb st = .ok v := by
  have := ha.four
  have := ha.inside
  rw [parseNested, ha.plen, okb]
  exact walk_safe mem hm _ (by omega) (a + 4) cb (fun x st _ hx _ => hcb x st hx) _ _ _ _ .first (by omega) (by omega)

theorem nlParseAllowedip_safe (mem : List UInt8) (x : Nat) (hx : Inside mem x) (st : Nat × NlIP) : ∃ v, nlParseAllowedip mem x st = .ok v := by
  rw [nlParseAllowedip, hx.type, okb]
  split
  · exact hx.fixed_took 2 _ _ _
  split
  · refine bind_ok (hx.exact 4) fun v _ => ?_
    cases v
    · simp only
      refine bind_ok (hx.exact 16) fun v _ => ?_
      cases v <;> exact ⟨_, rfl⟩
    · exact ⟨_, rfl⟩
  split
  · exact hx.fixed_took 1 _ _ _
  · exact ⟨_, rfl⟩

theorem nlParseAllowedips_safe (mem : List UInt8) (hm : mem.length < 2 ^ 30) (x : Nat) (hx : Inside mem x) (st : Nat × NlPeer) : ∃ v, nlParseAllowedips mem x st = .ok v := by
  rw [nlParseAllowedips]
  refine bind_ok (parseNested_safe mem hm hx _ (fun x st hx => nlParseAllowedip_safe mem x hx st) _) fun v _ => ?_
  obtain ⟨ret, e, ip⟩ := v
  simp only
  split
  · exact ⟨_, rfl⟩
  split <;> exact ⟨_, rfl⟩

theorem nlParseEp_safe (mem : List UInt8) (x : Nat) (hx : Inside mem x) (ep : List UInt8) : ∃ v, nlParseEp mem x ep = .ok v := by
  rw [nlParseEp, hx.plen, okb]
  split
  · exact ⟨_, rfl⟩
  · refine bind_ok (hx.num (by omega)) fun v _ => ?_
    split
    · rename_i h; exact bind_ok (hx.bytes (by omega)) fun v _ => ⟨_, rfl⟩
    split
    · rename_i h; exact hx.bytes (by omega)
    · exact ⟨_, rfl⟩

theorem exact_opt (mem : List UInt8) (x : Nat) (hx : Inside mem x) (n : Nat) {β : Type} (f : List UInt8 → β) (g : β) :
    ∃ w, ((exactPayload mem x n).bind fun b => match b with | some b => Res.ok (f b) | none => .ok g) = .ok w := by
  refine bind_ok (hx.exact n) fun v _ => ?_
  cases v <;> exact ⟨_, rfl⟩

theorem nlParsePeer_safe (mem : List UInt8) (hm : mem.length < 2 ^ 30) (x : Nat) (hx : Inside mem x) (st : Nat × NlPeer) : ∃ v, nlParsePeer mem x st = .ok v := by
  rw [nlParsePeer, hx.type, okb]
  split
  · exact exact_opt mem x hx 32 _ _
  split
  · exact exact_opt mem x hx 32 _ _
  split
  · exact bind_ok (nlParseEp_safe mem x hx _) fun v _ => ⟨_, rfl⟩
  split
  · exact hx.fixed_took 2 _ _ _
  split
  · exact exact_opt mem x hx 16 _ _
  split
  · exact hx.fixed_took 8 _ _ _
  split
  · exact hx.fixed_took 8 _ _ _
  split
  · exact parseNested_safe mem hm hx _ (fun x st hx => nlParseAllowedips_safe mem hm x hx st) _
  · exact ⟨_, rfl⟩

theorem nlParsePeers_safe (mem : List UInt8) (hm : mem.length < 2 ^ 30) (x : Nat) (hx : Inside mem x) (st : Nat × NlDevice) : ∃ v, nlParsePeers mem x st = .ok v := by
  rw [nlParsePeers]
  refine bind_ok (parseNested_safe mem hm hx _ (fun x st hx => nlParsePeer_safe mem hm x hx st) _) fun v _ => ?_
  obtain ⟨ret, e, ip⟩ := v
  simp only
  split
  · exact ⟨_, rfl⟩
  split <;> exact ⟨_, rfl⟩

theorem strncpyAt_safe (mem : List UInt8) : ∀ (k i n : Nat), i + n ≤ mem.length → (0 : UInt8) ∈ (mem.drop i).take n → ∃ v, strncpyAt mem k i = .ok v := by
  intro k
  induction k with
  | zero => intro i n _ _; exact ⟨_, rfl⟩
  | succ k ih =>
    intro i n hi h0
    have hn : n ≠ 0 := by rintro rfl; simp at h0
    obtain ⟨n, rfl⟩ := Nat.exists_eq_succ_of_ne_zero hn
    rw [strncpyAt, rdNum_ok (by omega), okb]
    split
    · exact ⟨_, rfl⟩
    · rename_i hc
      refine bind_ok (ih (i + 1) n (by omega) ?_) fun v _ => ⟨_, rfl⟩
      have hd : mem.drop i = mem[i]'(by omega) :: mem.drop (i + 1) := List.drop_eq_getElem_cons (by omega)
      rw [hd] at h0 hc
      rw [List.take_succ_cons, List.mem_cons] at h0
      refine h0.resolve_left fun h => hc ?_
      rw [List.take_succ_cons, ← h]
      rfl

theorem nlParseDevice_safe (mem : List UInt8) (hm : mem.length < 2 ^ 30) (x : Nat) (hx : Inside mem x)
    (hn : le ((mem.drop (x + 2)).take 2) % 0x4000 = 2 → 4 < attrLen mem x → (0 : UInt8) ∈ (mem.drop (x + 4)).take (attrLen mem x - 4)) (st : Nat × NlDevice) :
    ∃ v, nlParseDevice mem x st = .ok v := by
  rw [nlParseDevice, hx.type, okb]
  split
  · exact hx.fixed_took 4 _ _ _
  split
  · rename_i h2
    rw [validString, hx.plen, okb, okb]
    split
    · rename_i h
      have := hx.inside
      have hlt : 4 < attrLen mem x := by simp at h; omega
      exact bind_ok (strncpyAt_safe mem 15 (x + 4) (attrLen mem x - 4) (by omega) (hn h2 hlt)) fun v _ => ⟨_, rfl⟩
    · exact ⟨_, rfl⟩
  split
  · exact exact_opt mem x hx 32 _ _
  split
  · exact exact_opt mem x hx 32 _ _
  split
  · exact hx.fixed_took 2 _ _ _
  split
  · exact hx.fixed_took 4 _ _ _
  split
  · exact parseNested_safe mem hm hx _ (fun x st hx => nlParsePeers_safe mem hm x hx st) _
  · exact ⟨_, rfl⟩

theorem msgLen_lt (mem : List UInt8) (h : Nat) : msgLen mem h < 2 ^ 32 := le_take_lt (mem.drop h) 4

/-- A data callback that only reads its message. -/
def CbSafe {σ : Type} (mem : List UInt8) (f : Nat → Nat × σ → Res (Int × Nat × σ)) : Prop :=
  ∀ h st, HeaderAt mem h → 16 ≤ msgLen mem h → h + pad4 (msgLen mem h) ≤ mem.length → ∃ v, f h st = .ok v

theorem readDeviceCb_safe (mem : List UInt8) (hm : mem.length < 2 ^ 30) (hn : NamesTerminated mem) : CbSafe mem (readDeviceCb mem) := by
  intro h st hh h16 hin
  have p := pad4_ge (msgLen mem h)
  rw [readDeviceCb, parseMsg, rdNum_ok (by omega), okb]
  have a4 : align4 4 = 4 := rfl
  rw [a4]
  exact walk_safe mem hm _ hin (h + 16 + 4) _ (fun x st hx hi ht => nlParseDevice_safe mem hm x hi (fun t2 t4 => hn h hh x hx ht t2 t4) st) _ _ _ _ .first
    (by omega) (by omega)

theorem headerAt_dvd {mem : List UInt8} {h : Nat} (hh : HeaderAt mem h) : 4 ∣ h := by
  induction hh with
  | first => exact Nat.dvd_zero 4
  | next h hh _ _ ih =>
    have : 4 ∣ pad4 (msgLen mem h) := by simp only [pad4]; omega
    omega

theorem headerAt_le {mem : List UInt8} {h : Nat} (hh : HeaderAt mem h) : h < mem.length + 4 := by
  cases hh with
  | first => omega
  | next h hh _ _ => have := pad4_lt (msgLen mem h); omega

/-- Control callbacks that only read their message. -/
def CtlSafe (mem : List UInt8) (ctl : CtlCb) : Prop :=
  ∀ h type flags errno, 16 ≤ msgLen mem h → h + msgLen mem h ≤ mem.length → ∃ v, ctl mem h (msgLen mem h) type flags errno = .ok v

theorem ctlCb_safe (mem : List UInt8) : CtlSafe mem ctlCb := by
  intro h type flags errno h1 h2
  rw [ctlCb]
  split
  · split
    · exact ⟨_, rfl⟩
    · exact bind_ok ⟨_, rdNum_ok (by omega)⟩ fun v _ => ⟨_, rfl⟩
  split
  · split
    · exact bind_ok ⟨_, rdNum_ok (by omega)⟩ fun v _ => ⟨_, rfl⟩
    · exact ⟨_, rfl⟩
  · exact ⟨_, rfl⟩

/-- Walking messages reads only them, and ends. -/
theorem cbRunWith_safe {σ : Type} (ctl : CtlCb) (mem : List UInt8) (hm : mem.length < 2 ^ 30) (h4 : 4 ∣ mem.length) (seq portid : Nat) (cb : Option (Nat → Nat × σ → Res (Int × Nat × σ)))
    (hctl : CtlSafe mem ctl) (hcb : ∀ f, cb = some f → CbSafe mem f) (hl : ∀ h, HeaderAt mem h → h + 16 ≤ mem.length → msgLen mem h < 2 ^ 31) :
    ∀ (fuel h : Nat) (ret : Int) (st : Nat × σ), HeaderAt mem h → mem.length - h < fuel → ∃ v, cbRunWith ctl mem seq portid cb fuel h (mem.length - h) ret st = .ok v := by
  intro fuel
  induction fuel with
  | zero => intro h ret st _ hf; omega
  | succ fuel ih =>
    intro h ret st hh hf
    have hd := headerAt_dvd hh
    have hle := headerAt_le hh
    rw [cbRunWith]
    by_cases hs : (mem.length : Int) - h < 16
    · rw [if_pos hs]; exact ⟨_, rfl⟩
    have hlt := hl h hh (by omega)
    have hrd : rdNum mem h 4 = .ok (msgLen mem h) := rdNum_ok (by omega)
    rw [if_neg hs, hrd, okb, toInt32_of (by omega) (by omega)]
    split
    · exact ⟨_, rfl⟩
    · rename_i hok
      have p1 := pad4_ge (msgLen mem h)
      have p2 := pad4_lt (msgLen mem h)
      have hin : h + pad4 (msgLen mem h) ≤ mem.length := by
        have : 4 ∣ pad4 (msgLen mem h) := by simp only [pad4]; omega
        omega
      have hnext : ∀ r st, ∃ v, cbRunWith ctl mem seq portid cb fuel (h + align4 (msgLen mem h)) (toInt32 (mem.length - h - align4 (msgLen mem h))) r st = .ok v := by
        intro r st
        have e : (mem.length : Int) - h - (align4 (msgLen mem h) : Nat) = mem.length - ((h + pad4 (msgLen mem h) : Nat) : Int) := by rw [align4_pad4]; omega
        rw [e, toInt32_of (by omega) (by omega)]
        exact ih _ r st (.next h hh (by omega) (by omega)) (by omega)
      refine bind_ok ⟨_, rdNum_ok (by omega)⟩ fun pid _ => ?_
      split
      · exact ⟨_, rfl⟩
      refine bind_ok ⟨_, rdNum_ok (by omega)⟩ fun sq _ => ?_
      split
      · exact ⟨_, rfl⟩
      refine bind_ok ⟨_, rdNum_ok (by omega)⟩ fun flags _ => ?_
      split
      · exact ⟨_, rfl⟩
      refine bind_ok ⟨_, rdNum_ok (by omega)⟩ fun type _ => ?_
      simp only
      split
      · cases cb with
        | none => exact hnext _ _
        | some f =>
          refine bind_ok (hcb f rfl h st hh (by omega) hin) fun v _ => ?_
          obtain ⟨r, st'⟩ := v
          simp only
          split
          · exact ⟨_, rfl⟩
          · exact hnext _ _
      split
      · exact hnext _ _
      · refine bind_ok (hctl h type flags st.1 (by omega) (by omega)) fun v _ => ?_
        obtain ⟨r, e⟩ := v
        simp only
        split
        · exact ⟨_, rfl⟩
        · exact hnext _ _

theorem cbRun_safe {σ : Type} (mem : List UInt8) (hm : mem.length < 2 ^ 30) (h4 : 4 ∣ mem.length) (seq portid : Nat) (cb : Option (Nat → Nat × σ → Res (Int × Nat × σ)))
    (hcb : ∀ f, cb = some f → CbSafe mem f) (hl : ∀ h, HeaderAt mem h → h + 16 ≤ mem.length → msgLen mem h < 2 ^ 31) (fuel h : Nat) (ret : Int) (st : Nat × σ)
    (hh : HeaderAt mem h) (hf : mem.length - h < fuel) : ∃ v, cbRun mem seq portid cb fuel h (mem.length - h) ret st = .ok v :=
  cbRunWith_safe ctlCb mem hm h4 seq portid cb (ctlCb_safe mem) hcb hl fuel h ret st hh hf

/-! ### What lies behind the message does not matter -/

/-- If the first ends, the second ends in the same way. -/
def LeR {α : Type} (r r' : Res α) : Prop := ∀ v, r = .ok v → r' = .ok v

theorem LeR.rfl {α : Type} {r : Res α} : LeR r r := fun _ h => h

theorem LeR.bind {α β : Type} {r r' : Res α} {f f' : α → Res β} (h : LeR r r') (hf : ∀ v, LeR (f v) (f' v)) : LeR (r.bind f) (r'.bind f') := by
  intro v hv
  cases r with
  | ok a => rw [h a _root_.rfl, okb]; rw [okb] at hv; exact hf a v hv
  | _ => simp [Res.bind] at hv

theorem LeR.ite {α : Type} {p : Prop} [Decidable p] {a a' b b' : Res α} (h1 : LeR a a') (h2 : LeR b b') : LeR (if p then a else b) (if p then a' else b') := by
  split
  · exact h1
  · exact h2

section
variable (mem stale : List UInt8)

theorem rdBytes_mono (i n : Nat) : LeR (rdBytes mem i n) (rdBytes (mem ++ stale) i n) := by
  intro v hv
  rw [rdBytes] at hv
  split at hv
  · rename_i h
    rw [← hv, rdBytes_ok (by rw [List.length_append]; omega), take_drop_append _ _ _ _ h]
  · simp at hv

theorem rdNum_mono (i n : Nat) : LeR (rdNum mem i n) (rdNum (mem ++ stale) i n) := (rdBytes_mono mem stale i n).bind fun _ => .rfl

theorem attrType_mono (a : Nat) : LeR (attrType mem a) (attrType (mem ++ stale) a) := (rdNum_mono mem stale _ _).bind fun _ => .rfl

theorem attrPayloadLen_mono (a : Nat) : LeR (attrPayloadLen mem a) (attrPayloadLen (mem ++ stale) a) := (rdNum_mono mem stale _ _).bind fun _ => .rfl

theorem attrOk_mono (a : Nat) (len : Int) : LeR (attrOk mem a len) (attrOk (mem ++ stale) a len) := .ite .rfl ((rdNum_mono mem stale _ _).bind fun _ => .rfl)

theorem walk_mono {σ : Type} (tail : Nat) (cb cb' : Nat → σ → Res (Int × σ)) (hcb : ∀ x st, LeR (cb x st) (cb' x st)) :
    ∀ (fuel fuel' a : Nat) (ret : Int) (st : σ), fuel ≤ fuel' → LeR (walk mem tail cb fuel a ret st) (walk (mem ++ stale) tail cb' fuel' a ret st) := by
  intro fuel
  induction fuel with
  | zero => intro fuel' a ret st _ v hv; simp [walk] at hv
  | succ fuel ih =>
    intro fuel' a ret st hf
    cases fuel' with
    | zero => omega
    | succ fuel' =>
      rw [walk, walk]
      refine (attrOk_mono mem stale _ _).bind fun ok => .ite .rfl ((hcb a st).bind fun v => ?_)
      obtain ⟨r, st'⟩ := v
      exact .ite .rfl ((rdNum_mono mem stale _ _).bind fun n => ih _ _ _ _ (by omega))

theorem parseNested_mono {σ : Type} (a : Nat) (cb cb' : Nat → σ → Res (Int × σ)) (hcb : ∀ x st, LeR (cb x st) (cb' x st)) (st : σ) :
    LeR (parseNested mem a cb st) (parseNested (mem ++ stale) a cb' st) :=
  (attrPayloadLen_mono mem stale a).bind fun n => walk_mono mem stale _ cb cb' hcb _ _ _ _ _ (by rw [List.length_append]; omega)

theorem exactPayload_mono (a n : Nat) : LeR (exactPayload mem a n) (exactPayload (mem ++ stale) a n) :=
  (attrPayloadLen_mono mem stale a).bind fun _ => .ite ((rdBytes_mono mem stale _ _).bind fun _ => .rfl) .rfl

theorem fixedNum_mono (a n : Nat) : LeR (fixedNum mem a n) (fixedNum (mem ++ stale) a n) :=
  ((attrPayloadLen_mono mem stale a).bind fun _ => .rfl).bind fun _ => .ite ((rdNum_mono mem stale _ _).bind fun _ => .rfl) .rfl

theorem nlParseAllowedip_mono (x : Nat) (st : Nat × NlIP) : LeR (nlParseAllowedip mem x st) (nlParseAllowedip (mem ++ stale) x st) := by
  refine (attrType_mono mem stale x).bind fun t => .ite ((fixedNum_mono mem stale x 2).bind fun _ => .rfl) (.ite ((exactPayload_mono mem stale x 4).bind fun b => ?_)
    (.ite ((fixedNum_mono mem stale x 1).bind fun _ => .rfl) .rfl))
  cases b with
  | some b => exact .rfl
  | none => exact (exactPayload_mono mem stale x 16).bind fun b => .rfl

theorem nlParseAllowedips_mono (x : Nat) (st : Nat × NlPeer) : LeR (nlParseAllowedips mem x st) (nlParseAllowedips (mem ++ stale) x st) :=
  (parseNested_mono mem stale x _ _ (nlParseAllowedip_mono mem stale) _).bind fun _ => .rfl

theorem nlParseEp_mono (x : Nat) (ep : List UInt8) : LeR (nlParseEp mem x ep) (nlParseEp (mem ++ stale) x ep) :=
  (attrPayloadLen_mono mem stale x).bind fun _ => .ite .rfl ((rdNum_mono mem stale _ _).bind fun _ => .ite ((rdBytes_mono mem stale _ _).bind fun _ => .rfl)
    (.ite (rdBytes_mono mem stale _ _) .rfl))

theorem nlParsePeer_mono (x : Nat) (st : Nat × NlPeer) : LeR (nlParsePeer mem x st) (nlParsePeer (mem ++ stale) x st) := by
  have e := fun n => (exactPayload_mono mem stale x n)
  have f := fun n => (fixedNum_mono mem stale x n)
  exact (attrType_mono mem stale x).bind fun t => .ite ((e 32).bind fun _ => .rfl) (.ite ((e 32).bind fun _ => .rfl) (.ite ((nlParseEp_mono mem stale x _).bind fun _ => .rfl)
    (.ite ((f 2).bind fun _ => .rfl) (.ite ((e 16).bind fun _ => .rfl) (.ite ((f 8).bind fun _ => .rfl) (.ite ((f 8).bind fun _ => .rfl)
      (.ite (parseNested_mono mem stale x _ _ (nlParseAllowedips_mono mem stale) _) .rfl)))))))

theorem nlParsePeers_mono (x : Nat) (st : Nat × NlDevice) : LeR (nlParsePeers mem x st) (nlParsePeers (mem ++ stale) x st) :=
  (parseNested_mono mem stale x _ _ (nlParsePeer_mono mem stale) _).bind fun _ => .rfl

theorem strncpyAt_mono : ∀ k i : Nat, LeR (strncpyAt mem k i) (strncpyAt (mem ++ stale) k i) := by
  intro k
  induction k with
  | zero => intro i; exact .rfl
  | succ k ih => intro i; exact (rdNum_mono mem stale _ _).bind fun _ => .ite .rfl ((ih _).bind fun _ => .rfl)

theorem nlParseDevice_mono (x : Nat) (st : Nat × NlDevice) : LeR (nlParseDevice mem x st) (nlParseDevice (mem ++ stale) x st) := by
  have e := fun n => (exactPayload_mono mem stale x n)
  have f := fun n => (fixedNum_mono mem stale x n)
  exact (attrType_mono mem stale x).bind fun t => .ite ((f 4).bind fun _ => .rfl)
    (.ite (((attrPayloadLen_mono mem stale x).bind fun _ => .rfl).bind fun _ => .ite ((strncpyAt_mono mem stale _ _).bind fun _ => .rfl) .rfl)
    (.ite ((e 32).bind fun _ => .rfl) (.ite ((e 32).bind fun _ => .rfl) (.ite ((f 2).bind fun _ => .rfl) (.ite ((f 4).bind fun _ => .rfl)
      (.ite (parseNested_mono mem stale x _ _ (nlParsePeers_mono mem stale) _) .rfl))))))

theorem readDeviceCb_mono (h : Nat) (st : Nat × NlDevice) : LeR (readDeviceCb mem h st) (readDeviceCb (mem ++ stale) h st) :=
  (rdNum_mono mem stale _ _).bind fun _ => walk_mono mem stale _ _ _ (nlParseDevice_mono mem stale) _ _ _ _ _ (by rw [List.length_append]; omega)

theorem ctlCb_mono (h len type flags errno : Nat) : LeR (ctlCb mem h len type flags errno) (ctlCb (mem ++ stale) h len type flags errno) :=
  .ite (.ite .rfl ((rdNum_mono mem stale _ _).bind fun _ => .rfl)) (.ite (.ite ((rdNum_mono mem stale _ _).bind fun _ => .rfl) .rfl) .rfl)

theorem cbRunWith_mono {σ : Type} (ctl : CtlCb) (hctl : ∀ h len type flags errno, LeR (ctl mem h len type flags errno) (ctl (mem ++ stale) h len type flags errno)) (seq portid : Nat) (cb cb' : Option (Nat → Nat × σ → Res (Int × Nat × σ)))
    (hcb : ∀ f, cb = some f → ∃ f', cb' = some f' ∧ ∀ h st, LeR (f h st) (f' h st)) (hn : cb = none → cb' = none) :
    ∀ (fuel h : Nat) (len ret : Int) (st : Nat × σ), LeR (cbRunWith ctl mem seq portid cb fuel h len ret st) (cbRunWith ctl (mem ++ stale) seq portid cb' fuel h len ret st) := by
  intro fuel
  induction fuel with
  | zero => intro h len ret st; exact .rfl
  | succ fuel ih =>
    intro h len ret st
    rw [cbRunWith, cbRunWith]
    have rd := fun i n => rdNum_mono mem stale i n
    refine .ite .rfl ((rd _ _).bind fun n => .ite .rfl ((rd _ _).bind fun _ => .ite .rfl ((rd _ _).bind fun _ => .ite .rfl ((rd _ _).bind fun flags => .ite .rfl
      ((rd _ _).bind fun type => .ite ?_ (.ite (ih _ _ _ _) ((hctl _ _ _ _ _).bind fun v => .ite .rfl (ih _ _ _ _))))))))
    cases cb with
    | none =>
      obtain rfl := hn rfl
      exact ih _ _ _ _
    | some f =>
      obtain ⟨f', rfl, hf⟩ := hcb f rfl
      exact (hf h st).bind fun v => .ite .rfl (ih _ _ _ _)

theorem cbRun_mono {σ : Type} (seq portid : Nat) (cb cb' : Option (Nat → Nat × σ → Res (Int × Nat × σ)))
    (hcb : ∀ f, cb = some f → ∃ f', cb' = some f' ∧ ∀ h st, LeR (f h st) (f' h st)) (hn : cb = none → cb' = none) (fuel h : Nat) (len ret : Int) (st : Nat × σ) :
    LeR (cbRun mem seq portid cb fuel h len ret st) (cbRun (mem ++ stale) seq portid cb' fuel h len ret st) :=
  cbRunWith_mono mem stale ctlCb (ctlCb_mono mem stale) seq portid cb cb' hcb hn fuel h len ret st

end

end WG
