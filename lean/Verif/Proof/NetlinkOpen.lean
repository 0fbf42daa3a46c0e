import Verif.Proof.NetlinkSafe
import Verif.Proof.NetlinkRecv
import Verif.Proof.NetlinkMsg
import Verif.Spec.NetlinkOpen
/-! Opening a netlink socket (C63). -/
namespace WG
open Spec

/-! ### Arbitrary bytes, with an invariant of the callback's data -/

theorem bind_ok_inv {α β : Type} {r : Res α} {f : α → Res β} {P : α → Prop} {Q : β → Prop} (h1 : ∃ v, r = .ok v ∧ P v) (h2 : ∀ v, P v → ∃ w, f v = .ok w ∧ Q w) :
    ∃ w, r.bind f = .ok w ∧ Q w := by
  obtain ⟨v, rfl, hv⟩ := h1
  exact h2 v hv

theorem walk_safe_inv {σ : Type} (Inv : σ → Prop) (mem : List UInt8) (hm : mem.length < 2 ^ 30) (tail : Nat) (ht : tail ≤ mem.length) (a : Nat) (cb : Nat → σ → Res (Int × σ))
    (hcb : ∀ x st, Inv st → AttrAt mem a tail x → Inside mem x → x + attrLen mem x ≤ tail → ∃ v, cb x st = .ok v ∧ Inv v.2) :
    ∀ (fuel x : Nat) (ret : Int) (st : σ), Inv st → AttrAt mem a tail x → x ≤ tail + 4 → tail - x < fuel → ∃ v, walk mem tail cb fuel x ret st = .ok v ∧ Inv v.2 := by
  intro fuel
  induction fuel with
  | zero => intro x ret st _ _ _ h; omega
  | succ fuel ih =>
    intro x ret st hi hx h1 h2
    rw [walk, toInt32_of (by omega) (by omega), attrOk]
    by_cases h4 : (tail : Int) - x < 4
    · rw [if_pos h4, okb]; exact ⟨_, rfl, hi⟩
    · rw [if_neg h4, rdNum_ok (by omega), okb, okb]
      split
      · exact ⟨_, rfl, hi⟩
      · rename_i hok
        have hok' : 4 ≤ attrLen mem x ∧ x + attrLen mem x ≤ tail := by
          simp only [Bool.not_eq_true', decide_eq_false_iff_not, Classical.not_not] at hok
          have := hok.1; have := hok.2
          simp only [attrLen]; omega
        have hin : Inside mem x := ⟨hok'.1, by omega⟩
        refine bind_ok_inv (hcb x st hi hx hin hok'.2) fun v hv => ?_
        obtain ⟨r, st'⟩ := v
        simp only
        split
        · exact ⟨_, rfl, hv⟩
        · rw [okb]
          change ∃ w, walk mem tail cb fuel (x + pad4 (attrLen mem x)) r st' = .ok w ∧ _
          have p1 := pad4_ge (attrLen mem x)
          have p2 := pad4_lt (attrLen mem x)
          exact ih _ _ _ hv (.next x hx hok'.1 hok'.2) (by omega) (by omega)

theorem cbRun_safe_inv {σ : Type} (Inv : σ → Prop) (mem : List UInt8) (hm : mem.length < 2 ^ 30) (h4 : 4 ∣ mem.length) (seq portid : Nat)
    (f : Nat → Nat × σ → Res (Int × Nat × σ))
    (hcb : ∀ h st, Inv st.2 → HeaderAt mem h → 16 ≤ msgLen mem h → h + msgLen mem h ≤ mem.length → h + pad4 (msgLen mem h) ≤ mem.length → 16 ≤ le ((mem.drop (h + 4)).take 2) →
      idOk (le ((mem.drop (h + 8)).take 4)) seq = true → idOk (le ((mem.drop (h + 12)).take 4)) portid = true → ∃ v, f h st = .ok v ∧ Inv v.2.2)
    (hl : ∀ h, HeaderAt mem h → h + 16 ≤ mem.length → msgLen mem h < 2 ^ 31) :
    ∀ (fuel h : Nat) (ret : Int) (st : Nat × σ), Inv st.2 → HeaderAt mem h → mem.length - h < fuel →
      ∃ v, cbRun mem seq portid (some f) fuel h (mem.length - h) ret st = .ok v ∧ Inv v.2.2 := by
  intro fuel
  induction fuel with
  | zero => intro h ret st _ _ hf; omega
  | succ fuel ih =>
    intro h ret st hi hh hf
    have hd := headerAt_dvd hh
    have hle := headerAt_le hh
    rw [cbRun_succ]
    by_cases hs : (mem.length : Int) - h < 16
    · rw [if_pos hs]; exact ⟨_, rfl, hi⟩
    have hlt := hl h hh (by omega)
    have hrd : rdNum mem h 4 = .ok (msgLen mem h) := rdNum_ok (by omega)
    rw [if_neg hs, hrd, okb, toInt32_of (by omega) (by omega)]
    split
    · exact ⟨_, rfl, hi⟩
    · rename_i hok
      have p1 := pad4_ge (msgLen mem h)
      have p2 := pad4_lt (msgLen mem h)
      have hin : h + pad4 (msgLen mem h) ≤ mem.length := by
        have : 4 ∣ pad4 (msgLen mem h) := by simp only [pad4]; omega
        omega
      have hnext : ∀ r st, Inv st.2 → ∃ v, cbRun mem seq portid (some f) fuel (h + align4 (msgLen mem h)) (toInt32 (mem.length - h - align4 (msgLen mem h))) r st = .ok v ∧ Inv v.2.2 := by
        intro r st hi
        have e : (mem.length : Int) - h - (align4 (msgLen mem h) : Nat) = mem.length - ((h + pad4 (msgLen mem h) : Nat) : Int) := by rw [align4_pad4]; omega
        rw [e, toInt32_of (by omega) (by omega)]
        exact ih _ r st hi (.next h hh (by omega) (by omega)) (by omega)
      rw [rdNum_ok (by omega), okb]
      split
      · exact ⟨_, rfl, hi⟩
      rename_i hpid
      rw [rdNum_ok (by omega), okb]
      split
      · exact ⟨_, rfl, hi⟩
      rename_i hsq
      rw [rdNum_ok (by omega), okb]
      split
      · exact ⟨_, rfl, hi⟩
      rw [rdNum_ok (by omega), okb]
      simp only
      split
      · rename_i ht
        refine bind_ok_inv (hcb h st hi hh (by omega) (by omega) hin ht (by simpa using hsq) (by simpa using hpid)) fun v hv => ?_
        obtain ⟨r, st'⟩ := v
        simp only
        split
        · exact ⟨_, rfl, hv⟩
        · exact hnext _ _ hv
      split
      · exact hnext _ _ hi
      · refine bind_ok_inv (P := fun _ => True) (by obtain ⟨v, hv⟩ := ctlCb_safe mem h _ _ st.1 (by omega) (by omega); exact ⟨v, hv, trivial⟩) fun v _ => ?_
        obtain ⟨r, e⟩ := v
        simp only
        split
        · exact ⟨_, rfl, hi⟩
        · exact hnext _ _ hi

theorem idOk_cases {x want : Nat} (h : idOk x want = true) : x = want ∨ x = 0 ∨ want = 0 := by
  simp only [idOk, decide_eq_true_eq] at h
  omega

/-- The callback for the family id reads only its message, and takes the id from there. -/
theorem famCb_safe (max : Nat) (mem : List UInt8) (hm : mem.length < 2 ^ 30) (seq portid : Nat) (h : Nat) (st : Nat × UInt16)
    (hi : st.2 = 0 ∨ Tells mem seq portid st.2) (hh : HeaderAt mem h) (h16 : 16 ≤ msgLen mem h) (hin' : h + msgLen mem h ≤ mem.length)
    (hin : h + pad4 (msgLen mem h) ≤ mem.length) (ht : 16 ≤ le ((mem.drop (h + 4)).take 2))
    (hsq : idOk (le ((mem.drop (h + 8)).take 4)) seq = true) (hpid : idOk (le ((mem.drop (h + 12)).take 4)) portid = true) :
    ∃ v, famCb max mem h st = .ok v ∧ (v.2.2 = 0 ∨ Tells mem seq portid v.2.2) := by
  have p := pad4_ge (msgLen mem h)
  have a4 : align4 4 = 4 := rfl
  rw [famCb, parseMsg, rdNum_ok (by omega), okb, a4]
  have hw := walk_safe_inv (σ := Nat × Option Nat)
    (fun s => ∀ x, s.2 = some x → AttrAt mem (h + 20) (h + pad4 (msgLen mem h)) x ∧ x + attrLen mem x ≤ h + pad4 (msgLen mem h) ∧
      le ((mem.drop (x + 2)).take 2) % 0x4000 = 1 ∧ attrLen mem x = 6) mem hm (h + pad4 (msgLen mem h)) hin (h + 20) (famAttrCb max mem)
    (fun x st hi hx hins htl => by
      rw [famAttrCb, hins.type, okb]
      split
      · exact ⟨_, rfl, hi⟩
      rename_i hmax
      have hv : (if le ((mem.drop (x + 2)).take 2) % 0x4000 = 1 then validFixed mem x 2 else Res.ok true) =
          Res.ok (if le ((mem.drop (x + 2)).take 2) % 0x4000 = 1 then decide (attrLen mem x - 4 = 2) else true) := by
        split
        · rw [validFixed, hins.plen, okb]
        · rfl
      rw [hv, okb]
      by_cases hok : (!(if le ((mem.drop (x + 2)).take 2) % 0x4000 = 1 then decide (attrLen mem x - 4 = 2) else true)) = true
      · rw [if_pos hok]; exact ⟨_, rfl, hi⟩
      rw [if_neg hok, if_neg (by omega)]
      refine ⟨_, rfl, ?_⟩
      intro y hy
      by_cases h1 : le ((mem.drop (x + 2)).take 2) % 0x4000 = 1
      · simp only [if_pos h1, Option.some.injEq] at hy
        subst hy
        rw [if_pos h1] at hok
        have := hins.four
        simp at hok
        exact ⟨hx, htl, h1, by omega⟩
      · simp only [if_neg h1] at hy
        exact hi y hy)
    (mem.length + 1) (h + 20) 1 (st.1, none) (fun x hx => by simp at hx) .first (by omega) (by omega)
  obtain ⟨⟨r, e, tb⟩, hw1, hw2⟩ := hw
  change ∃ v, ((walk mem (h + pad4 (msgLen mem h)) (famAttrCb max mem) (mem.length + 1) (h + 20) 1 (st.1, none)).bind _) = .ok v ∧ _
  rw [hw1, okb]
  cases tb with
  | none => exact ⟨_, rfl, hi⟩
  | some x =>
    obtain ⟨h1, h2, h3, h4⟩ := hw2 x rfl
    simp only
    rw [rdNum_ok (by omega), okb]
    refine ⟨_, rfl, .inr ⟨h, x, hh, hin', ht, idOk_cases hsq, idOk_cases hpid, h1, h2, h3, h4, ?_⟩⟩
    have := le_take_lt (mem.drop (x + 4)) 2
    simp only [UInt16.toNat_ofNat']
    omega

theorem famAttrCb_mono (max : Nat) (mem stale : List UInt8) (x : Nat) (st : Nat × Option Nat) : LeR (famAttrCb max mem x st) (famAttrCb max (mem ++ stale) x st) := by
  refine (attrType_mono mem stale x).bind fun t => .ite .rfl (.bind (.ite ?_ .rfl) fun _ => .rfl)
  exact (attrPayloadLen_mono mem stale x).bind fun _ => .rfl

theorem famCb_mono (max : Nat) (mem stale : List UInt8) (h : Nat) (st : Nat × UInt16) : LeR (famCb max mem h st) (famCb max (mem ++ stale) h st) := by
  refine LeR.bind ?_ fun v => ?_
  · refine (rdNum_mono mem stale _ _).bind fun n => ?_
    exact walk_mono mem stale _ _ _ (famAttrCb_mono max mem stale) _ _ _ _ _ (by rw [List.length_append]; omega)
  · obtain ⟨_, e, tb⟩ := v
    cases tb with
    | none => exact .rfl
    | some a => exact (rdNum_mono mem stale _ _).bind fun _ => .rfl

/-! ### Well-formed replies -/

/-- An attribute the program takes. -/
def famTakes (max : Nat) (a : Nat × List UInt8) : Bool := decide (a.1 ≤ max ∧ (a.1 = 1 → a.2.length = 2))

/-- What the entry of the table says. -/
def famEntry (mem : List UInt8) (tb : Option Nat) (v : Option (List UInt8)) : Prop :=
  match tb, v with
  | none, none => True
  | some x, some d => At mem x 1 d ∧ d.length = 2
  | _, _ => False

theorem famAttrCb_at {max : Nat} {mem : List UInt8} {x t : Nat} {d : List UInt8} (hx : At mem x t d) (st : Nat × Option Nat) :
    famAttrCb max mem x st = if famTakes max (t, d) then .ok (1, st.1, if t = 1 then some x else st.2) else .ok (-1, if t > max then 95 else 34, st.2) := by
  rw [famAttrCb, hx.rdType, okb]
  by_cases h1 : t > max
  · rw [if_pos h1, if_neg (by simp [famTakes]; omega), if_pos h1]
  rw [if_neg h1]
  by_cases h2 : t = 1
  · subst h2
    rw [if_pos rfl, validFixed, hx.rdPayloadLen, okb]
    by_cases h3 : d.length = 2
    · have hT : famTakes max (1, d) = true := by simp [famTakes, h3]; omega
      have hmx : 1 ≤ max := by omega
      simp [h3, hT, hmx]
    · rw [if_pos (by simp [h3]), if_neg (by simp [famTakes, h3]), if_neg h1]
  · have hT : famTakes max (t, d) = true := by simp [famTakes, h2]; omega
    have hmx : t ≤ max := by omega
    simp [h2, hT, hmx]

theorem walk_family (max : Nat) (mem : List UInt8) (hm : mem.length < 2 ^ 30) :
    ∀ (l : List (Nat × List UInt8)) (a L tail fuel : Nat) (ret : Int) (e : Nat) (tb : Option Nat) (v : Option (List UInt8)), attrs ((mem.drop a).take L) = some l → a + L ≤ mem.length →
      a + L ≤ tail → tail < a + L + 4 → L < fuel → famEntry mem tb v →
      ∃ r e' tb', walk mem tail (famAttrCb max mem) fuel a ret (e, tb) = .ok (r, e', tb') ∧ famEntry mem tb' ((attr? (l.takeWhile (famTakes max)) 1).or v) := by
  intro l
  induction l with
  | nil =>
    intro a L tail fuel ret e tb v h ha ht1 ht2 hf hi
    rcases attrs_cases h with ⟨hb, -⟩ | ⟨t, d, l', hl, -⟩
    · have hL : L = 0 := by
        have := congrArg List.length hb
        rw [List.length_take, List.length_drop] at this; simp at this; omega
      cases fuel with
      | zero => omega
      | succ fuel =>
        rw [walk, attrOk, toInt32_of (by omega) (by omega), if_pos (by omega)]
        exact ⟨_, _, _, rfl, hi⟩
    · simp at hl
  | cons p l ih =>
    intro a L tail fuel ret e tb v h ha ht1 ht2 hf hi
    obtain ⟨t, d⟩ := p
    rcases attrs_cases h with ⟨-, hb⟩ | ⟨t', d', l', hl, h1, h2, h3, h4, h5⟩
    · simp at hb
    · simp only [List.cons.injEq, Prod.mk.injEq] at hl
      obtain ⟨⟨rfl, rfl⟩, rfl⟩ := hl
      have hLl : ((mem.drop a).take L).length = L := by rw [List.length_take, List.length_drop]; omega
      rw [hLl] at h1
      have hat : At mem a t d := by
        refine ⟨by omega, ?_, ?_, ?_⟩
        · rw [List.take_take, Nat.min_eq_left (by omega)] at h2; exact h2
        · rw [List.drop_take, List.take_take, Nat.min_eq_left (by omega), List.drop_drop] at h3; exact h3
        · rw [List.drop_take, List.take_take, Nat.min_eq_left (by omega), List.drop_drop] at h4; exact h4
      have c1 := famAttrCb_at (max := max) hat (e, tb)
      cases fuel with
      | zero => omega
      | succ fuel =>
        have hp := pad4_ge (4 + d.length)
        have hp' := pad4_lt (4 + d.length)
        rw [walk, attrOk, toInt32_of (by omega) (by omega), if_neg (by omega), hat.rdLen, okb, okb, if_neg (by simp; omega), c1]
        by_cases htk : famTakes max (t, d) = true
        · rw [if_pos htk]
          simp only
          rw [if_neg (by omega), okb, List.takeWhile_cons_of_pos htk]
          rw [List.drop_take, List.drop_drop] at h5
          have hcons : ∀ w : List (Nat × List UInt8), (attr? ((t, d) :: w) 1).or v = (attr? w 1).or ((if t = 1 then some d else none).or v) := by
            intro w
            rw [show (t, d) :: w = [(t, d)] ++ w from rfl, attr?_append, attr?_single, Option.or_assoc]
          rw [hcons]
          have hi' : famEntry mem (if t = 1 then some a else tb) ((if t = 1 then some d else none).or v) := by
            by_cases e1 : t = 1
            · subst e1
              simp only [famTakes] at htk
              have := of_decide_eq_true htk
              rw [if_pos rfl, if_pos rfl]
              exact ⟨hat, this.2 trivial⟩
            · rw [if_neg e1, if_neg e1, Option.none_or]; exact hi
          by_cases hrest : pad4 (4 + d.length) ≤ L
          · exact ih (a + pad4 (4 + d.length)) (L - pad4 (4 + d.length)) tail fuel _ e _ _ h5 (by omega) (by omega) (by omega) (by omega) hi'
          · rw [show L - pad4 (4 + d.length) = 0 from by omega, List.take_zero] at h5
            rcases attrs_cases h5 with ⟨-, rfl⟩ | ⟨t', d', l', -, h1', -⟩
            · cases fuel with
              | zero => omega
              | succ fuel =>
                rw [walk, attrOk, align4_pad4, toInt32_of (by omega) (by omega), if_pos (by omega)]
                exact ⟨_, _, _, rfl, hi'⟩
            · simp at h1'
        · rw [if_neg htk, List.takeWhile_cons_of_neg htk]
          exact ⟨_, _, _, rfl, hi⟩

/-- The callback for the family id on a well-formed message. -/
theorem famCb_step {max : Nat} {mem : List UInt8} (hm : mem.length < 2 ^ 30) {h : Nat} {m : NlMsg} (hat : MsgAt mem h m) (h4 : 4 ≤ m.body.length) {l : List (Nat × List UInt8)}
    (hl : attrs (m.body.drop 4) = some l) (e : Nat) (id : UInt16) :
    ∃ e', famCb max mem h (e, id) = .ok (match familyId max l with | some id' => (1, e', id') | none => (-1, e', id)) := by
  have hin := hat.inside
  have hreg : (mem.drop (h + 16 + align4 4)).take (m.body.length - 4) = m.body.drop 4 := by
    conv_rhs => rw [← hat.body]
    rw [List.drop_take, List.drop_drop]; rfl
  have p1 := pad4_ge (16 + m.body.length)
  have p2 := pad4_lt (16 + m.body.length)
  have a4 : align4 4 = 4 := rfl
  obtain ⟨r, e', tb, hw, hi⟩ := walk_family max mem hm l (h + 16 + align4 4) (m.body.length - 4) (h + align4 (16 + m.body.length)) (mem.length + 1) 1 e none none
    (by rw [hreg]; exact hl) (by omega) (by rw [align4_pad4 (16 + _)]; omega) (by rw [align4_pad4 (16 + _)]; omega) (by omega) trivial
  refine ⟨e', ?_⟩
  rw [famCb, parseMsg, rdNum_ok (by omega), hat.len, okb (β := Int × Nat × Option Nat), hw]
  simp only
  rw [Option.or_none] at hi
  change famEntry mem tb (attr? (l.takeWhile fun a => decide (a.1 ≤ max ∧ (a.1 = 1 → a.2.length = 2))) 1) at hi
  simp only [familyId]
  cases ha : attr? (l.takeWhile fun a => decide (a.1 ≤ max ∧ (a.1 = 1 → a.2.length = 2))) 1 with
  | none =>
    rw [ha] at hi
    cases tb with
    | none => rfl
    | some x => exact absurd hi (by simp [famEntry])
  | some d =>
    rw [ha] at hi
    cases tb with
    | none => exact absurd hi (by simp [famEntry])
    | some x =>
      obtain ⟨hx, hd⟩ := hi
      have hp := hx.rdPayload _ rfl
      simp only [Option.map_some]
      have hr : rdNum mem (x + 4) 2 = .ok (le d) := by rw [rdNum, ← hd, hp, okb, leNat_eq]
      rw [okb]
      simp only [hr]

/-- One data message. -/
theorem cbRun_msg {σ : Type} (data stale : List UInt8) (hm : (data ++ stale).length < 2 ^ 30) (seq portid : Nat) (f : Nat → Nat × σ → Res (Int × Nat × σ)) {m : NlMsg} {rest : List NlMsg}
    {fuel h : Nat} (h1 : messages (data.drop h) = some (m :: rest)) (hd : m.IsData seq portid) (hf : data.length - h < fuel) (hh : h < data.length + 4) (ret : Int) (st st' : Nat × σ) (r : Int)
    (hcb : MsgAt (data ++ stale) h m → f h st = .ok (r, st')) :
    if r ≤ 0 then cbRun (data ++ stale) seq portid (some f) fuel h (data.length - h) ret st = .ok (r, st')
    else ∃ h' fuel', cbRun (data ++ stale) seq portid (some f) fuel h (data.length - h) ret st = cbRun (data ++ stale) seq portid (some f) fuel' h' (data.length - h') r st' ∧
        messages (data.drop h') = some rest ∧ data.length - h' < fuel' ∧ h' < data.length + 4 := by
  obtain ⟨hat, hin, hnext⟩ := msgAt_of (stale := stale) (by exact h1)
  obtain ⟨d1, d2, d3, d4, d5⟩ := hd
  have hin' := hat.inside
  have p1 := pad4_ge (16 + m.body.length)
  have p2 := pad4_lt (16 + m.body.length)
  have hlen : data.length < 2 ^ 30 := by rw [List.length_append] at hm; omega
  have hfl : ¬ m.flags / 16 % 2 = 1 := by
    have h4 := d2
    rw [Nat.testBit_eq_decide_div_mod_eq] at h4
    simpa using h4
  cases fuel with
  | zero => omega
  | succ fuel =>
    have step : cbRun (data ++ stale) seq portid (some f) (fuel + 1) h (data.length - h) ret st =
        if r ≤ 0 then .ok (r, st') else cbRun (data ++ stale) seq portid (some f) fuel (h + pad4 (16 + m.body.length)) (data.length - ((h + pad4 (16 + m.body.length) : Nat) : Int)) r st' := by
      rw [cbRun_succ, if_neg (by omega), rdNum_ok (by omega), hat.len, okb, toInt32_of (by omega) (by omega), if_neg (by omega), rdNum_ok (by omega), hat.portid, okb, d4,
        if_neg (by simp [idOk]), rdNum_ok (by omega), hat.seq, okb, d3, if_neg (by simp [idOk]), rdNum_ok (by omega), hat.flags, okb]
      rw [if_neg hfl, rdNum_ok (by omega), hat.type, okb, if_pos d1]
      simp only
      rw [hcb hat, okb]
      simp only
      have : ((data.length : Int) - h - (pad4 (16 + m.body.length) : Nat)) = (data.length : Int) - ((h + pad4 (16 + m.body.length) : Nat) : Int) := by omega
      rw [align4_pad4, toInt32_of (by omega) (by omega), this]
    split
    · rename_i hr; rw [step, if_pos hr]
    · rename_i hr
      exact ⟨_, fuel, by rw [step, if_neg hr], hnext, by omega, by omega⟩

theorem toInt32_neg (x e : Nat) (_ : x < 2 ^ 32) (he : e < 2 ^ 31) (h : (x + e) % 2 ^ 32 = 0) : toInt32 x = -(e : Int) := by
  simp only [toInt32]
  omega

/-- An acknowledgement or error. -/
theorem cbRun_error {σ : Type} (data stale : List UInt8) (hm : (data ++ stale).length < 2 ^ 30) (seq portid : Nat) (cb : Option (Nat → Nat × σ → Res (Int × Nat × σ))) {m : NlMsg} {rest : List NlMsg}
    {fuel h : Nat} (h1 : messages (data.drop h) = some (m :: rest)) (error : Nat) (hd : m.IsError seq portid error) (hf : data.length - h < fuel) (ret : Int) (st : Nat × σ) :
    cbRun (data ++ stale) seq portid cb fuel h (data.length - h) ret st = .ok (if error = 0 then 0 else -1, error, st.2) := by
  obtain ⟨hat, hin, hnext⟩ := msgAt_of (stale := stale) (by exact h1)
  obtain ⟨d1, d2, d3, d4, d5, d6, d7⟩ := hd
  have hin' := hat.inside
  have hlen : data.length < 2 ^ 30 := by rw [List.length_append] at hm; omega
  have hfl : ¬ m.flags / 16 % 2 = 1 := by
    have h4 := d2
    rw [Nat.testBit_eq_decide_div_mod_eq] at h4
    simpa using h4
  have hcode : ((data ++ stale).drop (h + 16)).take 4 = m.body.take 4 := by
    conv_rhs => rw [← hat.body]
    rw [List.take_take, Nat.min_eq_left (by omega)]
  cases fuel with
  | zero => omega
  | succ fuel =>
    rw [cbRun_succ, if_neg (by omega), rdNum_ok (by omega), hat.len, okb, toInt32_of (by omega) (by omega), if_neg (by omega), rdNum_ok (by omega), hat.portid, okb, d4,
      if_neg (by simp [idOk]), rdNum_ok (by omega), hat.seq, okb, d3, if_neg (by simp [idOk]), rdNum_ok (by omega), hat.flags, okb,
      if_neg hfl, rdNum_ok (by omega), hat.type, okb, d1, if_neg (by omega), if_neg (by omega)]
    rw [ctlCb, if_pos rfl, if_neg (by omega), rdNum_ok (by omega), hcode, okb]
    rw [toInt32_neg _ error (le_take_lt m.body 4) d6 d7]
    simp only
    by_cases h0 : error = 0
    · subst h0; simp
    · have : ¬ (-(error : Int) = 0) := by omega
      simp [h0]

theorem data_ne {data : List UInt8} {m : NlMsg} {l : List NlMsg} (h : messages data = some (m :: l)) : data.length ≠ 0 := by
  intro e0
  rw [List.length_eq_zero_iff.1 e0] at h
  simp [messages, messagesAux] at h

/-- The end of a datagram. -/
theorem cbRun_end {σ : Type} (data stale : List UInt8) (seq portid : Nat) (cb : Option (Nat → Nat × σ → Res (Int × Nat × σ))) {fuel h : Nat} (h1 : messages (data.drop h) = some [])
    (hf : data.length - h < fuel) (ret : Int) (st : Nat × σ) : cbRun (data ++ stale) seq portid cb fuel h (data.length - h) ret st = .ok (ret, st) := by
  cases fuel with
  | zero => omega
  | succ fuel =>
    have hz : data.length ≤ h := by
      rcases messages_cases h1 with ⟨hb, -⟩ | ⟨m, l, hl, -⟩
      · have := congrArg List.length hb
        rw [List.length_drop] at this; simp at this; omega
      · simp at hl
    rw [cbRun_succ, if_pos (by omega)]

theorem replyIs_ne {ds : List (List UInt8)} {ms : List NlMsg} (h : ReplyIs ds ms) : ms ≠ [] := by
  cases h with
  | here _ _ _ _ h1 => exact h1
  | split _ _ ms ms' h1 => intro h; exact h1 (List.append_eq_nil_iff.1 h).1

/-- Both messages of the answer. -/
theorem recvRun_family (max : Nat) (seq portid : Nat) (ds : List (List UInt8 × List UInt8)) (hb : ∀ d ∈ ds, (d.1 ++ d.2).length < 2 ^ 30) (reply ack : NlMsg) (id : UInt16)
    (h : ReplyIs (ds.map (·.1)) [reply, ack]) (h1 : reply.TellsFamily seq portid max id) (h2 : ack.IsError seq portid 0) (e : Nat) (id0 : UInt16) :
    recvRun seq portid (some (famCb max)) (ds.map fun d => .msg d.1 d.2) (e, id0) = .ok (0, 0, id) := by
  obtain ⟨hd, l, hl, hid⟩ := h1
  cases ds with
  | nil => cases h
  | cons d ds =>
    obtain ⟨data, stale⟩ := d
    have hm := hb (data, stale) (by simp)
    simp only at hm
    rw [List.map_cons] at h ⊢
    have first : ∀ rest, messages data = some (reply :: rest) → ∃ e' h' fuel', cbRun (data ++ stale) seq portid (some (famCb max (data ++ stale))) (data.length + 1) 0 (data.length : Int) 1 (e, id0) =
        cbRun (data ++ stale) seq portid (some (famCb max (data ++ stale))) fuel' h' (data.length - h') 1 (e', id) ∧ messages (data.drop h') = some rest ∧ data.length - h' < fuel' := by
      intro rest hms
      obtain ⟨hat, -, -⟩ := msgAt_of (data := data) (stale := stale) (h := 0) (by rw [List.drop_zero]; exact hms)
      obtain ⟨e', hcb⟩ := famCb_step (max := max) hm hat hd.2.2.2.2 hl e id0
      rw [hid] at hcb
      have := cbRun_msg data stale hm seq portid (famCb max (data ++ stale)) (h := 0) (fuel := data.length + 1) (by rw [List.drop_zero]; exact hms) hd (by omega) (by omega) 1 (e, id0) (e', id) 1 (fun _ => hcb)
      rw [if_neg (by omega)] at this
      obtain ⟨h', fuel', e1, e2, e3, -⟩ := this
      rw [show ((data.length : Int) - ((0 : Nat) : Int)) = data.length from by omega] at e1
      exact ⟨e', h', fuel', e1, e2, e3⟩
    generalize hq : [reply, ack] = q at h
    cases h with
    | here _ _ _ rest hne hms =>
      subst hq
      obtain ⟨e', h', fuel', e1, e2, e3⟩ := first (ack :: rest) hms
      rw [recvRun, if_neg (data_ne hms), Option.map_some, e1, cbRun_error data stale hm seq portid _ e2 0 h2 e3]
      rfl
    | split _ _ ms ms' hne hms hrest =>
      have hne' := replyIs_ne hrest
      match ms, ms', hne, hne', hq with
      | [m], ms', _, _, hq =>
        simp only [List.cons_append, List.nil_append, List.cons.injEq] at hq
        obtain ⟨rfl, rfl⟩ := hq
        obtain ⟨e', h', fuel', e1, e2, e3⟩ := first [] hms
        rw [recvRun, if_neg (data_ne hms), Option.map_some, e1, cbRun_end data stale seq portid _ e2 e3, okb]
        simp only
        rw [if_pos (by omega)]
        cases ds with
        | nil => cases hrest
        | cons d ds =>
          obtain ⟨data', stale'⟩ := d
          have hm' := hb (data', stale') (by simp)
          simp only at hm'
          rw [List.map_cons] at hrest ⊢
          have fin : ∀ rest, messages data' = some (ack :: rest) → recvRun seq portid (some (famCb max)) (.msg data' stale' :: ds.map fun d => .msg d.1 d.2) (e', id) = .ok (0, 0, id) := by
            intro rest hms
            have := cbRun_error data' stale' hm' seq portid (some (famCb max (data' ++ stale'))) (h := 0) (fuel := data'.length + 1) (by rw [List.drop_zero]; exact hms) 0 h2 (by omega) 1 (e', id)
            rw [show ((data'.length : Int) - ((0 : Nat) : Int)) = data'.length from by omega] at this
            rw [recvRun, if_neg (data_ne hms), Option.map_some, this]
            rfl
          generalize hq : [ack] = q at hrest
          cases hrest with
          | here _ _ _ rest hne hms => subst hq; exact fin rest hms
          | split _ _ ms ms' hne hms hrest =>
            have hne' := replyIs_ne hrest
            match ms, ms', hne, hne', hq with
            | _ :: _, _ :: _, _, _, hq => simp at hq
      | [_, _], _ :: _, _, _, hq => simp at hq
      | _ :: _ :: _ :: _, _, _, _, hq => simp at hq

/-- A refusal. -/
theorem recvRun_refused {σ : Type} (cb : Option (List UInt8 → Nat → Nat × σ → Res (Int × Nat × σ))) (seq portid : Nat) (data stale : List UInt8) (hb : (data ++ stale).length < 2 ^ 30)
    (more : List Recv) (m : NlMsg) (rest : List NlMsg) (hms : messages data = some (m :: rest)) (error : Nat) (he : error ≠ 0) (h : m.IsError seq portid error) (st : Nat × σ) :
    recvRun seq portid cb (.msg data stale :: more) st = .ok (-1, error, st.2) := by
  have := cbRun_error data stale hb seq portid (cb.map fun f => f (data ++ stale)) (h := 0) (fuel := data.length + 1) (by rw [List.drop_zero]; exact hms) error h (by omega) 1 st
  rw [show ((data.length : Int) - ((0 : Nat) : Int)) = data.length from by omega] at this
  rw [recvRun, if_neg (data_ne hms), this, okb]
  simp [he]

end WG
