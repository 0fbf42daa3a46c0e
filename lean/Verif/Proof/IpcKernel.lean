import Verif.Proof.IpcList
import Verif.Proof.NetlinkSafe
import Verif.Proof.NetlinkRecv
/-! Kernel interfaces (C53). -/
namespace WG
open Spec

theorem readString_some {bs s : List UInt8} (h : readString bs = some s) : bs = s ++ [0] ∧ (0 : UInt8) ∉ s ∧ s ≠ [] := by
  rw [readString] at h
  split at h
  · rename_i hc
    cases h
    obtain ⟨h1, h2, h3⟩ := hc
    refine ⟨?_, h2, h3⟩
    have hne : bs ≠ [] := by rintro rfl; simp at h1
    rw [List.getLast?_eq_getLast_of_ne_nil hne, Option.some.injEq] at h1
    conv_lhs => rw [← List.dropLast_concat_getLast hne, h1]
  · simp at h

theorem optional_of_some {α : Type} (b : List UInt8) (read : List UInt8 → Option α) : Spec.optional (some b) read = (read b).map some := rfl
theorem optional_of_none {α : Type} (read : List UInt8 → Option α) : Spec.optional none read = some none := rfl

/-- Reading a string attribute. -/
theorem memStr_at {mem : List UInt8} {x t : Nat} {d s : List UInt8} (h : At mem x t d) (hs : readString d = some s) : memStr mem (x + 4) = .ok s := by
  obtain ⟨rfl, h2, -⟩ := readString_some hs
  have hd := h.data
  have hin := h.inside
  obtain ⟨r, hr⟩ : ∃ r, mem.drop (x + 4) = s ++ 0 :: r := ⟨(mem.drop (x + 4)).drop (s ++ [(0 : UInt8)]).length, by
    conv_lhs => rw [← List.take_append_drop (s ++ [(0 : UInt8)]).length (mem.drop (x + 4)), hd]
    simp⟩
  rw [memStr, hr, if_pos (by simp)]
  congr 1
  rw [List.takeWhile_append_of_pos (by intro a ha; simp; intro h; exact h2 (h ▸ ha))]
  simp

theorem strEqAt_spec (mem : List UInt8) : ∀ (lit s : List UInt8) (i : Nat) (r : List UInt8), (0 : UInt8) ∉ lit → (0 : UInt8) ∉ s → i ≤ mem.length →
    mem.drop i = s ++ 0 :: r → strEqAt mem lit i = .ok (decide (s = lit)) := by
  intro lit
  induction lit with
  | nil =>
    intro s i r _ hs hi h
    have hl := congrArg List.length h
    rw [List.length_drop, List.length_append, List.length_cons] at hl
    rw [strEqAt, rdNum_ok (by omega), h, okb]
    cases s with
    | nil => simp [le]
    | cons a s =>
      have : a.toNat ≠ 0 := fun e => hs (by rw [show a = 0 from UInt8.toNat_inj.1 e]; simp)
      simp [le, this]
  | cons c lit ih =>
    intro s i r hlit hs hi h
    have hl := congrArg List.length h
    rw [List.length_drop, List.length_append, List.length_cons] at hl
    have hc : c.toNat ≠ 0 := fun e => hlit (by rw [show c = 0 from UInt8.toNat_inj.1 e]; simp)
    rw [strEqAt, rdNum_ok (by omega), h, okb]
    cases s with
    | nil =>
      have e : le (List.take 1 ([] ++ (0 : UInt8) :: r)) = 0 := rfl
      rw [if_neg (by rw [e]; exact fun e => hc e.symm)]
      simp
    | cons a s =>
      have e : le (List.take 1 (a :: s ++ 0 :: r)) = a.toNat := by simp [le]
      by_cases hac : a.toNat = c.toNat
      · rw [if_pos (by rw [e]; exact hac)]
        obtain rfl := UInt8.toNat_inj.1 hac
        rw [ih s (i + 1) r (fun h => hlit (by simp [h])) (fun h => hs (by simp [h])) (by simp at hl; omega) (by
          rw [← List.drop_drop, h]; simp)]
        simp
      · rw [if_neg (by rw [e]; exact hac)]
        have : ¬ a :: s = c :: lit := fun e => hac (by cases e; rfl)
        simp [this]

theorem strEqAt_at {mem : List UInt8} {x t : Nat} {d s lit : List UInt8} (h : At mem x t d) (hs : readString d = some s) (hl : (0 : UInt8) ∉ lit) :
    strEqAt mem lit (x + 4) = .ok (decide (s = lit)) := by
  obtain ⟨rfl, h2, -⟩ := readString_some hs
  have hd := h.data
  have hin := h.inside
  obtain ⟨r, hr⟩ : ∃ r, mem.drop (x + 4) = s ++ 0 :: r := ⟨(mem.drop (x + 4)).drop (s ++ [(0 : UInt8)]).length, by
    conv_lhs => rw [← List.take_append_drop (s ++ [(0 : UInt8)]).length (mem.drop (x + 4)), hd]
    simp⟩
  exact strEqAt_spec mem lit s (x + 4) r hl h2 (by omega) hr

/-- A nest of attributes each met with `f` on the state. -/
theorem parseNested_attrs' {σ : Type} {mem : List UInt8} (hm : mem.length < 2 ^ 30) {x t : Nat} {d : List UInt8} (h : At mem x t d) {l : List (Nat × List UInt8)}
    (hl : attrs d = some l) (cb : Nat → σ → Res (Int × σ)) (f : σ → Nat × List UInt8 → σ) (st : σ)
    (hcb : ∀ x t d st, (t, d) ∈ l → At mem x t d → cb x st = .ok (1, f st (t, d))) :
    parseNested mem x cb st = .ok (1, l.foldl f st) :=
  parseNested_attrs hm h hl cb f (fun _ => True) st trivial (fun x t d st h1 h2 _ => ⟨hcb x t d st h1 h2, trivial⟩)

/-- What `parse_linkinfo` does. -/
def kindStep (s : LinkSeen) (p : Nat × List UInt8) : LinkSeen := if p.1 = 1 ∧ readString p.2 = some b!"wireguard" then { s with isWg := true } else s

theorem kindStep_fold (l : List (Nat × List UInt8)) (s : LinkSeen) (nd : (l.map (·.1)).Nodup) {k : Option (List UInt8)} (hk : Spec.optional (attr? l 1) readString = some k) :
    (l.foldl kindStep s).name = s.name ∧ (l.foldl kindStep s).isWg = (s.isWg || decide (k = some b!"wireguard")) := by
  constructor
  · have : ∀ (l : List (Nat × List UInt8)) (s : LinkSeen), (l.foldl kindStep s).name = s.name := by
      intro l
      induction l with
      | nil => intro s; rfl
      | cons p l ih => intro s; rw [List.foldl_cons, ih, kindStep]; split <;> rfl
    exact this l s
  · rw [foldl_once kindStep LinkSeen.isWg 1 (fun b d => b || decide (readString d = some b!"wireguard")) (by
      intro st a
      rw [kindStep]
      by_cases h1 : a.1 = 1
      · by_cases h2 : readString a.2 = some b!"wireguard" <;> simp [h1, h2]
      · simp [h1]) l nd]
    cases h1 : attr? l 1 with
    | none =>
      rw [h1] at hk
      cases hk
      simp
    | some d =>
      rw [h1] at hk
      simp only [Spec.optional] at hk
      cases hr : readString d with
      | none => rw [hr] at hk; simp at hk
      | some v => rw [hr] at hk; cases hk; simp [hr]

theorem parseLinkinfo_step {mem : List UInt8} {x t : Nat} {d : List UInt8} (h : At mem x t d) (hd : t = 1 → ∃ s, readString d = some s) (s : LinkSeen) :
    parseLinkinfo mem x s = .ok (1, kindStep s (t, d)) := by
  rw [parseLinkinfo, h.rdType, okb]
  by_cases ht : t = 1
  · obtain ⟨v, hv⟩ := hd ht
    rw [if_pos ht, strEqAt_at h hv (by decide), okb, kindStep]
    simp [ht, hv]
  · rw [if_neg ht, kindStep, if_neg (fun e => ht e.1)]

/-- The ghost of the state of `parse_infomsg`: the name, and whether the kind is WireGuard's. -/
def infoStep (s : Option CStr × Bool) (p : Nat × List UInt8) : Option CStr × Bool :=
  if p.1 = 18 then
    (s.1, s.2 || decide (((attrsOnce p.2).bind fun l => Spec.optional (attr? l 1) readString) = some (some b!"wireguard")))
  else if p.1 = 3 then (readString p.2, s.2)
  else s

/-- What has been seen. -/
def Seen (mem : List UInt8) (s : LinkSeen) (g : Option CStr × Bool) : Prop :=
  s.isWg = g.2 ∧ match s.name, g.1 with
    | none, none => True
    | some i, some n => memStr mem i = .ok n
    | _, _ => False

theorem infoStep_fold (l : List (Nat × List UInt8)) (nd : (l.map (·.1)).Nodup) (g : Option CStr × Bool) :
    l.foldl infoStep g = ((match attr? l 3 with | none => g.1 | some d => readString d),
      g.2 || decide (((attr? l 18).bind fun d => (attrsOnce d).bind fun l => Spec.optional (attr? l 1) readString) = some (some b!"wireguard"))) := by
  refine Prod.ext ?_ ?_
  · rw [foldl_once infoStep Prod.fst 3 (fun _ d => readString d) (by
      intro st a
      rw [infoStep]
      by_cases h18 : a.1 = 18
      · rw [if_pos h18, if_neg (by omega)]
      · rw [if_neg h18]; split <;> rfl) l nd]
    rfl
  · rw [foldl_once infoStep Prod.snd 18 (fun b d => b || decide (((attrsOnce d).bind fun l => Spec.optional (attr? l 1) readString) = some (some b!"wireguard"))) (by
      intro st a
      rw [infoStep]
      by_cases h18 : a.1 = 18
      · rw [if_pos h18, if_pos h18]
      · rw [if_neg h18, if_neg h18]; split <;> rfl) l nd]
    cases attr? l 18 with
    | none => simp
    | some d => rfl

theorem readLink_some {body : List UInt8} {k : Link} (h : readLink body = some k) :
    ∃ l, attrs (body.drop 16) = some l ∧ (l.map (·.1)).Nodup ∧ (∀ t d, (t, d) ∈ l → t = 3 → readString d = some k.name) ∧
      (∀ t d, (t, d) ∈ l → t = 18 → ∃ l' v, attrsOnce d = some l' ∧ Spec.optional (attr? l' 1) readString = some v) ∧
      l.foldl infoStep (none, false) = (some k.name, decide (k.kind = some b!"wireguard")) := by
  rw [readLink] at h
  cases ha : attrsOnce (body.drop 16) with
  | none => rw [ha] at h; simp at h
  | some l =>
    obtain ⟨h1, nd⟩ := attrsOnce_some ha
    rw [ha, Option.bind_some] at h
    cases h3 : attr? l 3 with
    | none => rw [h3] at h; simp at h
    | some d3 =>
      rw [h3, Option.bind_some] at h
      cases hn : readString d3 with
      | none => rw [hn] at h; simp at h
      | some name =>
        rw [hn, Option.bind_some] at h
        refine ⟨l, h1, nd, ?_, ?_, ?_⟩
        · rintro t d hm rfl
          rw [mem_attr? nd hm] at h3
          cases h3
          cases hq : Spec.optional (attr? l 18) (fun d => (attrsOnce d).bind fun l => Spec.optional (attr? l 1) readString) with
          | none => rw [hq] at h; simp at h
          | some v => rw [hq] at h; simp at h; rw [hn, ← h]
        · rintro t d hm rfl
          rw [mem_attr? nd hm, optional_of_some] at h
          cases ho : attrsOnce d with
          | none => rw [ho] at h; simp at h
          | some l' =>
            rw [ho, Option.bind_some] at h
            cases hv : Spec.optional (attr? l' 1) readString with
            | none => rw [hv] at h; simp at h
            | some v => exact ⟨l', v, rfl, hv⟩
        · rw [infoStep_fold l nd, h3]
          simp only [hn, Bool.false_or]
          cases h18 : attr? l 18 with
          | none =>
            rw [h18, optional_of_none] at h
            simp at h
            simp [← h]
          | some d =>
            rw [h18, optional_of_some] at h
            rw [Option.bind_some]
            cases hq : ((attrsOnce d).bind fun l => Spec.optional (attr? l 1) readString) with
            | none => rw [hq] at h; simp at h
            | some v =>
              rw [hq] at h
              simp at h
              simp [← h]

/-- What a message about a link does. -/
theorem parseMsg_link {mem : List UInt8} (hm : mem.length < 2 ^ 30) {h : Nat} {m : NlMsg} (hat : MsgAt mem h m) (h16 : 16 ≤ m.body.length) {k : Link}
    (hk : readLink m.body = some k) :
    ∃ s, parseMsg mem h 16 (parseInfomsg mem) {} = .ok (1, s) ∧ Seen mem s (some k.name, decide (k.kind = some b!"wireguard")) := by
  obtain ⟨l, h1, nd, h3, h18, hf⟩ := readLink_some hk
  have hin := hat.inside
  have hreg : (mem.drop (h + 16 + align4 16)).take (m.body.length - 16) = m.body.drop 16 := by
    conv_rhs => rw [← hat.body]
    rw [List.drop_take, List.drop_drop]; rfl
  have p1 := pad4_ge (16 + m.body.length)
  have p2 := pad4_lt (16 + m.body.length)
  have a4 : align4 16 = 16 := rfl
  obtain ⟨s, e1, e2⟩ := walk_attrs_rel mem hm (parseInfomsg mem) infoStep (Seen mem) l (h + 16 + align4 16) (m.body.length - 16)
    (h + align4 (16 + m.body.length)) (mem.length + 1) {} (none, false) (by rw [hreg]; exact h1) (by omega) (by rw [align4_pad4 (16 + _)]; omega)
    (by rw [align4_pad4 (16 + _)]; omega) (by omega) ⟨rfl, trivial⟩ (by
      intro x t d st g hb hx hs
      rw [parseInfomsg, hx.rdType, okb]
      by_cases t18 : t = 18
      · obtain ⟨l', v, o1, o2⟩ := h18 t d hb t18
        obtain ⟨o3, o4⟩ := attrsOnce_some o1
        rw [if_pos t18, parseNested_attrs' hm hx o3 (parseLinkinfo mem) kindStep st (fun x t d st hb hx => parseLinkinfo_step hx (fun ht => by
          subst ht
          rw [mem_attr? o4 hb] at o2
          simp only [Spec.optional] at o2
          cases hr : readString d with
          | none => rw [hr] at o2; simp at o2
          | some s => exact ⟨s, rfl⟩) st)]
        refine ⟨_, rfl, ?_⟩
        obtain ⟨k1, k2⟩ := kindStep_fold l' st o4 o2
        rw [infoStep, if_pos t18]
        simp only [o1, Option.bind_some, o2, Option.some.injEq]
        obtain ⟨s1, s2⟩ := hs
        refine ⟨by rw [k2, s1], ?_⟩
        rw [k1]; exact s2
      · rw [if_neg t18]
        by_cases t3 : t = 3
        · rw [if_pos t3]
          refine ⟨_, rfl, ?_⟩
          rw [infoStep, if_neg t18, if_pos t3, h3 t d hb t3]
          exact ⟨hs.1, memStr_at hx (h3 t d hb t3)⟩
        · rw [if_neg t3]
          refine ⟨_, rfl, ?_⟩
          rw [infoStep, if_neg t18, if_neg t3]
          exact hs)
  rw [hf] at e2
  exact ⟨s, by rw [parseMsg, rdNum_ok (by omega), hat.len, okb, e1], e2⟩

theorem wgNames_cons (k : Link) (ks : List Link) : wgNames (k :: ks) = wgNames [k] ++ wgNames ks := by
  simp only [wgNames, List.filter_cons]
  split <;> simp

theorem wgNames_append (a b : List Link) : wgNames (a ++ b) = wgNames a ++ wgNames b := by simp [wgNames]

theorem nameBuffer_append_length (a b : List CStr) : (nameBuffer a).length ≤ (nameBuffer (a ++ b)).length := by simp [nameBuffer]

/-- What one message does to the list: the interface is added if it is WireGuard's, or there was no memory for it. -/
theorem readDevicesCb_step (heap : Heap) {mem : List UInt8} (hm : mem.length < 2 ^ 30) {h : Nat} {m : NlMsg} (hat : MsgAt mem h m) (ht : 16 ≤ m.type) {k : Link}
    (hk : readLink m.body = some k) (e : Nat) {l : StrList} {names : List CStr} (hl : Holds l names) (hF : ∀ n e, heap.fail n = some e → 0 < e)
    (hsz : (nameBuffer (names ++ wgNames [k])).length < 2 ^ 61) :
    (∃ l', readDevicesCb heap mem h (e, l) = .ok (2, e, l') ∧ Holds l' (names ++ wgNames [k])) ∨
    ∃ err l', heap.fail l.reallocs = some err ∧ readDevicesCb heap mem h (e, l) = .ok (-err, err, l') := by
  have h16 : 16 ≤ m.body.length := by
    rcases Nat.lt_or_ge m.body.length 16 with hlt | hge
    · exfalso
      rw [readLink, List.drop_eq_nil_of_le (by omega)] at hk
      rw [show attrsOnce [] = some [] from rfl] at hk
      simp [attr?] at hk
    · exact hge
  obtain ⟨s, e1, e2⟩ := parseMsg_link hm hat h16 hk
  have hin := hat.inside
  obtain ⟨s1, s2⟩ := e2
  have hnext : ∀ st : Nat × StrList, ((rdNum mem (h + 4) 2).bind fun t => Res.ok ((if t ≠ 3 then (2 : Int) else 1), st)) = .ok (2, st) := by
    intro st
    rw [rdNum_ok (by omega), hat.type, okb, if_pos (by omega)]
  rw [readDevicesCb, e1, okb]
  simp only
  rw [if_neg (by simp)]
  cases hn : s.name with
  | none => rw [hn] at s2; simp at s2
  | some i =>
    rw [hn] at s2
    simp only at s2
    simp only
    by_cases hw : k.kind = some b!"wireguard"
    · have hwn : wgNames [k] = [k.name] := by simp [wgNames, hw]
      have hkn : k.name ≠ [] := by
        rw [readLink] at hk
        rw [Option.bind_eq_some_iff] at hk
        obtain ⟨l, -, hk⟩ := hk
        rw [Option.bind_eq_some_iff] at hk
        obtain ⟨n, h1, hk⟩ := hk
        rw [Option.bind_eq_some_iff] at h1
        obtain ⟨d, -, h1⟩ := h1
        rw [Option.map_eq_some_iff] at hk
        obtain ⟨kd, -, hk⟩ := hk
        rw [← hk]
        exact (readString_some h1).2.2
      rw [hwn, nameBuffer_snoc_length] at hsz
      rw [if_pos (by rw [s1]; simpa using hw), s2, okb, hwn]
      rcases stringListAdd_spec heap hl k.name hkn hsz with ⟨l', h1, h2⟩ | ⟨err, h1, h2, -⟩
      · left
        refine ⟨l', ?_, h2⟩
        rw [h1, okb]
        simp only
        rw [if_neg (by omega)]
        exact hnext (e, l')
      · right
        refine ⟨err, { l with reallocs := l.reallocs + 1 }, h1, ?_⟩
        have := hF _ _ h1
        rw [h2, okb]
        simp only
        rw [if_pos (by omega)]
        simp
    · left
      have hwn : wgNames [k] = [] := by simp [wgNames, hw]
      rw [if_neg (by rw [s1]; simpa using hw), hwn, List.append_nil]
      exact ⟨l, hnext (e, l), hl⟩

/-- Messages about links are passed to the callback one after the other. -/
theorem cbRun_links (heap : Heap) (data stale : List UInt8) (hm : (data ++ stale).length < 2 ^ 30) (seq portid : Nat) (rest : List NlMsg)
    (hF : ∀ n e, heap.fail n = some e → 0 < e) :
    ∀ (ms : List NlMsg) (ks : List Link) (fuel h : Nat) (ret : Int) (e : Nat) (l : StrList) (names : List CStr), messages (data.drop h) = some (ms ++ rest) →
      (∀ m ∈ ms, m.IsData seq portid) → List.Forall₂ (fun m k => readLink m.body = some k) ms ks → data.length - h < fuel → h < data.length + 4 →
      Holds l names → (nameBuffer (names ++ wgNames ks)).length < 2 ^ 61 →
      (∃ h' fuel' l', cbRunWith defaultCtl (data ++ stale) seq portid (some (readDevicesCb heap (data ++ stale))) fuel h (data.length - h) ret (e, l) =
        cbRunWith defaultCtl (data ++ stale) seq portid (some (readDevicesCb heap (data ++ stale))) fuel' h' (data.length - h') (if ms = [] then ret else 2) (e, l') ∧
        messages (data.drop h') = some rest ∧ data.length - h' < fuel' ∧ h' < data.length + 4 ∧ Holds l' (names ++ wgNames ks)) ∨
      ∃ n err l', heap.fail n = some err ∧
        cbRunWith defaultCtl (data ++ stale) seq portid (some (readDevicesCb heap (data ++ stale))) fuel h (data.length - h) ret (e, l) = .ok (-err, err, l') := by
  intro ms
  induction ms with
  | nil =>
    intro ks fuel h ret e l names h1 _ hr h2 h3 h4 h5
    cases hr
    exact .inl ⟨h, fuel, l, rfl, h1, h2, h3, by simpa [wgNames] using h4⟩
  | cons m ms ih =>
    intro ks fuel h ret e l names h1 hd hr hf hh hl hsz
    obtain ⟨hat, hin, hnext⟩ := msgAt_of (stale := stale) (by exact h1)
    obtain ⟨d1, d2, d3, d4, d5⟩ := hd m (by simp)
    cases hr with
    | cons hk hr =>
    rename_i k ks
    rw [wgNames_cons] at hsz
    have hin' := hat.inside
    have p1 := pad4_ge (16 + m.body.length)
    have p2 := pad4_lt (16 + m.body.length)
    have hlen : data.length < 2 ^ 30 := by rw [List.length_append] at hm; omega
    cases fuel with
    | zero => omega
    | succ fuel =>
      have hfl : ¬ m.flags / 16 % 2 = 1 := by
        have h4 := d2
        rw [Nat.testBit_eq_decide_div_mod_eq] at h4
        simpa using h4
      have hsz1 : (nameBuffer (names ++ wgNames [k])).length < 2 ^ 61 := by
        have := nameBuffer_append_length (names ++ wgNames [k]) (wgNames ks)
        rw [List.append_assoc] at this
        omega
      rw [cbRunWith, if_neg (by omega), rdNum_ok (by omega), hat.len, okb, toInt32_of (by omega) (by omega), if_neg (by omega), rdNum_ok (by omega), hat.portid, okb, d4,
        if_neg (by simp [idOk]), rdNum_ok (by omega), hat.seq, okb, d3, if_neg (by simp [idOk]), rdNum_ok (by omega), hat.flags, okb,
        if_neg hfl, rdNum_ok (by omega), hat.type, okb, if_pos d1]
      simp only
      rcases readDevicesCb_step heap hm hat d1 hk e hl hF hsz1 with ⟨l', c1, c2⟩ | ⟨err, l', c1, c2⟩
      · rw [c1, okb]
        simp only
        rw [if_neg (by omega), align4_pad4, toInt32_of (by omega) (by omega)]
        have : ((data.length : Int) - h - (pad4 (16 + m.body.length) : Nat)) = (data.length : Int) - ((h + pad4 (16 + m.body.length) : Nat) : Int) := by omega
        rw [this]
        rcases ih ks fuel (h + pad4 (16 + m.body.length)) 2 e l' _ hnext (fun m hm => hd m (by simp [hm])) hr (by omega) (by omega) c2
          (by rw [List.append_assoc]; exact hsz) with ⟨h', fuel', l'', e1, e2, e3, e4, e5⟩ | ⟨n, err, l'', e1, e2⟩
        · left
          refine ⟨h', fuel', l'', ?_, e2, e3, e4, ?_⟩
          · rw [e1]; simp
          · rw [wgNames_cons, ← List.append_assoc]; exact e5
        · right; exact ⟨n, err, l'', e1, e2⟩
      · right
        refine ⟨_, err, l', c1, ?_⟩
        have := hF _ _ c1
        rw [c2, okb]
        simp only
        rw [if_pos (by omega)]

theorem cbRun_link_done (cb : Option (Nat → Nat × StrList → Res (Int × Nat × StrList))) (data stale : List UInt8) (hm : (data ++ stale).length < 2 ^ 30) (seq portid : Nat)
    {h' : Nat} {done : NlMsg} (hat : MsgAt (data ++ stale) h' done)
    (hin : h' + (16 + done.body.length) ≤ data.length) (hd : done.type = 3 ∧ done.flags.testBit 4 = false ∧ done.seq = seq ∧ done.portid = portid)
    (fuel' : Nat) (hf : data.length - h' < fuel') (ret : Int) (e : Nat) (l : StrList) :
    cbRunWith defaultCtl (data ++ stale) seq portid cb fuel' h' (data.length - h') ret (e, l) = .ok (0, e, l) := by
  have hin' := hat.inside
  obtain ⟨d1, d2, d4, d5⟩ := hd
  have hlen : data.length < 2 ^ 30 := by rw [List.length_append] at hm; omega
  cases fuel' with
  | zero => omega
  | succ fuel' =>
    have hfl : ¬ done.flags / 16 % 2 = 1 := by
      rw [Nat.testBit_eq_decide_div_mod_eq] at d2
      simpa using d2
    rw [cbRunWith, if_neg (by omega), rdNum_ok (by omega), hat.len, okb, toInt32_of (by omega) (by omega), if_neg (by omega), rdNum_ok (by omega), hat.portid, okb, d5,
      if_neg (by simp [idOk]), rdNum_ok (by omega), hat.seq, okb, d4, if_neg (by simp [idOk]), rdNum_ok (by omega), hat.flags, okb,
      if_neg hfl, rdNum_ok (by omega), hat.type, okb, d1, if_neg (by omega), if_neg (by omega)]
    rw [defaultCtl, if_pos rfl, okb]
    simp

theorem cbRun_link_intr (cb : Option (Nat → Nat × StrList → Res (Int × Nat × StrList))) (data stale : List UInt8) (hm : (data ++ stale).length < 2 ^ 30) (seq portid : Nat)
    {h' : Nat} {m : NlMsg} (hat : MsgAt (data ++ stale) h' m)
    (hin : h' + (16 + m.body.length) ≤ data.length) (d2 : m.flags.testBit 4 = true) (d4 : m.seq = seq) (d5 : m.portid = portid)
    (fuel' : Nat) (hf : data.length - h' < fuel') (ret : Int) (e : Nat) (l : StrList) :
    cbRunWith defaultCtl (data ++ stale) seq portid cb fuel' h' (data.length - h') ret (e, l) = .ok (-1, 4, l) := by
  have hin' := hat.inside
  have hlen : data.length < 2 ^ 30 := by rw [List.length_append] at hm; omega
  cases fuel' with
  | zero => omega
  | succ fuel' =>
    have hfl : m.flags / 16 % 2 = 1 := by
      rw [Nat.testBit_eq_decide_div_mod_eq] at d2
      simpa using d2
    rw [cbRunWith, if_neg (by omega), rdNum_ok (by omega), hat.len, okb, toInt32_of (by omega) (by omega), if_neg (by omega), rdNum_ok (by omega), hat.portid, okb, d5,
      if_neg (by simp [idOk]), rdNum_ok (by omega), hat.seq, okb, d4, if_neg (by simp [idOk]), rdNum_ok (by omega), hat.flags, okb,
      if_pos hfl]

/-- The first conclusion of `linkRun_dump`: all names are in the list; or there was no memory. -/
def ListedOr (heap : Heap) (r : Res (Int × StrList)) (names : List CStr) : Prop :=
  (∃ l', r = .ok (0, l') ∧ Holds l' names) ∨ ∃ n err l', heap.fail n = some err ∧ r = .ok (-(err : Int), l')

theorem linkRun_last (heap : Heap) (hF : ∀ n e, heap.fail n = some e → 0 < e ∧ e ≠ 4) (seq portid : Nat) (data stale : List UInt8) (more : List Recv)
    (hm : (data ++ stale).length < 2 ^ 30) (ms rest : List NlMsg) (x : NlMsg) (h1 : messages data = some (ms ++ x :: rest)) (h2 : ∀ m ∈ ms, m.IsData seq portid)
    (ks : List Link) (hks : List.Forall₂ (fun m k => readLink m.body = some k) ms ks) (e : Nat) (l : StrList) (names : List CStr) (hh : Holds l names)
    (hsz : (nameBuffer (names ++ wgNames ks)).length < 2 ^ 61)
    (h3 : ∀ (h' fuel' : Nat) (ret : Int) (l' : StrList), MsgAt (data ++ stale) h' x → h' + (16 + x.body.length) ≤ data.length → data.length - h' < fuel' →
          ∃ r e', (r = 0 ∨ (r = -1 ∧ e' = 4)) ∧ cbRunWith defaultCtl (data ++ stale) seq portid (some (readDevicesCb heap (data ++ stale))) fuel' h' (data.length - h') ret (e, l') =
            .ok (r, e', l')) :
    ListedOr heap (linkRun heap seq portid (.msg data stale :: more) (e, l)) (names ++ wgNames ks) := by
  have hzero : ((data.length : Int) - ((0 : Nat) : Int)) = data.length := by omega
  rcases cbRun_links heap data stale hm seq portid (x :: rest) (fun n e h => (hF n e h).1) ms ks (data.length + 1) 0 1 e l names (by rw [List.drop_zero]; exact h1) h2 hks
    (by omega) (by omega) hh hsz with ⟨h', fuel', l', e1, e2, e3, e4, e5⟩ | ⟨n, err, l', e1, e2⟩
  · obtain ⟨hat, hin, -⟩ := msgAt_of (stale := stale) e2
    obtain ⟨r, e', hr, h4⟩ := h3 h' fuel' (if ms = [] then 1 else 2) l' hat hin e3
    left
    refine ⟨l', ?_, e5⟩
    rw [hzero] at e1
    have hD : linkDatagram heap seq portid data stale (e, l) = .ok (r, e', l') := by delta linkDatagram; rw [e1, h4]
    rw [linkRun, hD, okb]
    rcases hr with rfl | ⟨rfl, rfl⟩ <;> simp
  · right
    have := hF _ _ e1
    refine ⟨n, err, l', e1, ?_⟩
    rw [hzero] at e2
    have hD : linkDatagram heap seq portid data stale (e, l) = .ok (-(err : Int), err, l') := by delta linkDatagram; rw [e2]
    rw [linkRun, hD, okb, if_pos ⟨by omega, this.2⟩]

theorem linkRun_more (heap : Heap) (hF : ∀ n e, heap.fail n = some e → 0 < e ∧ e ≠ 4) (seq portid : Nat) (data stale : List UInt8) (more : List Recv)
    (hm : (data ++ stale).length < 2 ^ 30) (ms1 : List NlMsg) (h1 : messages data = some ms1) (h2 : ms1 ≠ []) (h3 : ∀ m ∈ ms1, m.IsData seq portid)
    (ks1 : List Link) (k1 : List.Forall₂ (fun m k => readLink m.body = some k) ms1 ks1) (e : Nat) (l : StrList) (names : List CStr) (hh : Holds l names)
    (hsz1 : (nameBuffer (names ++ wgNames ks1)).length < 2 ^ 61) :
    (∃ l', linkRun heap seq portid (.msg data stale :: more) (e, l) = linkRun heap seq portid more (e, l') ∧ Holds l' (names ++ wgNames ks1)) ∨
    ∃ n err l', heap.fail n = some err ∧ linkRun heap seq portid (.msg data stale :: more) (e, l) = .ok (-(err : Int), l') := by
  have hzero : ((data.length : Int) - ((0 : Nat) : Int)) = data.length := by omega
  rcases cbRun_links heap data stale hm seq portid [] (fun n e h => (hF n e h).1) ms1 ks1 (data.length + 1) 0 1 e l names (by rw [List.drop_zero, List.append_nil]; exact h1) h3
    k1 (by omega) (by omega) hh hsz1 with ⟨h', fuel', l', e1, e2, e3, e4, e5⟩ | ⟨n, err, l', e1, e2⟩
  · left
    refine ⟨l', ?_, e5⟩
    rw [hzero] at e1
    cases fuel' with
    | zero => omega
    | succ fuel' =>
      have hz : data.length ≤ h' := by
        rcases messages_cases e2 with ⟨hb, -⟩ | ⟨m, l, hl, -⟩
        · have := congrArg List.length hb
          rw [List.length_drop] at this; simp at this; omega
        · simp at hl
      have hD : linkDatagram heap seq portid data stale (e, l) = .ok (2, e, l') := by delta linkDatagram; rw [e1, cbRunWith, if_pos (by omega), if_neg h2]
      rw [linkRun, hD, okb]
      rw [if_neg (fun h => absurd h.1 (by simp)), if_pos rfl]
  · right
    have := hF _ _ e1
    refine ⟨n, err, l', e1, ?_⟩
    rw [hzero] at e2
    have hD : linkDatagram heap seq portid data stale (e, l) = .ok (-(err : Int), err, l') := by delta linkDatagram; rw [e2]
    rw [linkRun, hD, okb, if_pos ⟨by omega, this.2⟩]

theorem forall₂_append_left {α β : Type} {R : α → β → Prop} : ∀ {a b : List α} {c : List β}, List.Forall₂ R (a ++ b) c →
    ∃ c1 c2, List.Forall₂ R a c1 ∧ List.Forall₂ R b c2 ∧ c = c1 ++ c2
  | [], b, c, h => ⟨[], c, .nil, h, rfl⟩
  | x :: a, b, c, h => by
    cases h with
    | cons h1 h2 =>
      obtain ⟨c1, c2, i1, i2, rfl⟩ := forall₂_append_left h2
      exact ⟨_ :: c1, c2, .cons h1 i1, i2, rfl⟩

/-- A dump of links is read to its end (or there was no memory). -/
theorem linkRun_dump (heap : Heap) (hF : ∀ n e, heap.fail n = some e → 0 < e ∧ e ≠ 4) (seq portid : Nat) : ∀ (ds : List (List UInt8 × List UInt8)) (ms : List NlMsg),
    (Dump seq portid (ds.map (·.1)) ms ∨ Interrupted seq portid (ds.map (·.1)) ms) →
    (∀ d ∈ ds, (d.1 ++ d.2).length < 2 ^ 30) → ∀ (ks : List Link), List.Forall₂ (fun m k => readLink m.body = some k) ms ks →
    ∀ (e : Nat) (l : StrList) (names : List CStr), Holds l names → (nameBuffer (names ++ wgNames ks)).length < 2 ^ 61 →
    ListedOr heap (linkRun heap seq portid (ds.map fun d => .msg d.1 d.2) (e, l)) (names ++ wgNames ks) := by
  intro ds
  induction ds with
  | nil => intro ms h; rcases h with h | h <;> cases h
  | cons d ds ih =>
    intro ms h hl ks hks e l names hh hsz
    obtain ⟨data, stale⟩ := d
    have hm := hl (data, stale) (by simp)
    simp only at hm
    rw [List.map_cons] at h ⊢
    have hmore : ∀ (ms1 ms2 : List NlMsg), messages data = some ms1 → ms1 ≠ [] → (∀ m ∈ ms1, m.IsData seq portid) → ms = ms1 ++ ms2 →
        (Dump seq portid (ds.map (·.1)) ms2 ∨ Interrupted seq portid (ds.map (·.1)) ms2) →
        ListedOr heap (linkRun heap seq portid (.msg data stale :: ds.map fun d => .msg d.1 d.2) (e, l)) (names ++ wgNames ks) := by
      intro ms1 ms2 h1 h2 h3 h4 h5
      subst h4
      obtain ⟨ks1, ks2, k1, k2, rfl⟩ := forall₂_append_left hks
      rw [wgNames_append] at hsz ⊢
      have hsz1 : (nameBuffer (names ++ wgNames ks1)).length < 2 ^ 61 := by
        have := nameBuffer_append_length (names ++ wgNames ks1) (wgNames ks2)
        rw [List.append_assoc] at this
        omega
      rcases linkRun_more heap hF seq portid data stale (ds.map fun d => .msg d.1 d.2) hm ms1 h1 h2 h3 ks1 k1 e l names hh hsz1 with ⟨l', e1, e2⟩ | ⟨n, err, l', e1, e2⟩
      · rw [e1, ← List.append_assoc]
        exact ih ms2 h5 (fun d hd => hl d (by simp [hd])) ks2 k2 e l' _ e2 (by rw [List.append_assoc]; exact hsz)
      · exact .inr ⟨n, err, l', e1, e2⟩
    rcases h with h | h
    · cases h with
      | last _ _ _ rest done h1 h2 h3 =>
        obtain ⟨d1, d2, d3, d4, d5, d6⟩ := h3
        exact linkRun_last heap hF seq portid data stale _ hm ms rest done h1 h2 ks hks e l names hh hsz fun h' fuel' ret l' hat hin hf =>
          ⟨0, e, .inl rfl, cbRun_link_done _ data stale hm seq portid hat hin ⟨d1, d2, d4, d5⟩ fuel' hf ret e l'⟩
      | more _ _ ms1 ms2 h1 h2 h3 h4 => exact hmore ms1 ms2 h1 h2 h3 rfl (.inl h4)
    · cases h with
      | last _ _ _ rest m h1 h2 h3 h4 h5 =>
        exact linkRun_last heap hF seq portid data stale _ hm ms rest m h1 h2 ks hks e l names hh hsz fun h' fuel' ret l' hat hin hf =>
          ⟨-1, 4, .inr ⟨rfl, rfl⟩, cbRun_link_intr _ data stale hm seq portid hat hin h3 h4 h5 fuel' hf ret e l'⟩
      | more _ _ ms1 ms2 h1 h2 h3 h4 => exact hmore ms1 ms2 h1 h2 h3 rfl (.inr h4)

end WG
