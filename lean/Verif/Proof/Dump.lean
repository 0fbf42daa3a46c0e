import Verif.Proof.Show
/-! The scripting output as a table (C34). -/
namespace WG
open Spec

theorem unlines_map {α : Type} (l : List α) (f : α → List UInt8) : unlines (l.map f) = l.flatMap fun a => f a ++ [10] := by
  simp [unlines, List.flatMap_map]

theorem unlines_cons (a : List UInt8) (l : List (List UInt8)) : unlines (a :: l) = a ++ [10] ++ unlines l := by simp [unlines]

theorem maybeKey_eq (k : Key) (b : Bool) : maybeKey k b = optKey k b := by
  cases b <;> simp [maybeKey, optKey, keyToBase64_rfc]

theorem markText_eq (m : UInt32) : markText m = if m = 0 then b!"off" else b!"0x" ++ hexadecimal m.toNat := by
  simp only [markText, showHex_eq]
  by_cases h : m = 0
  · rw [if_neg (by simpa using h), if_pos h]
  · rw [if_pos h, if_neg h]

theorem keepaliveText_eq (n : UInt16) : keepaliveText n = if n = 0 then b!"off" else decimal n.toNat := by
  simp only [keepaliveText, showDec_eq]
  by_cases h : n = 0
  · rw [if_neg (by simpa using h), if_pos h]
  · rw [if_pos h, if_neg h]

theorem endpointOrNone_eq (env : ShowEnv) (e : Endpoint) :
    endpointOrNone env e = if e = .unset then b!"(none)" else (textsOf env).endpoint e := by
  simp only [endpointOrNone, textsOf]
  by_cases h : e = .unset
  · rw [if_neg (by simpa using h), if_pos h]
  · rw [if_pos h, if_neg h]

/-- The entries of allowed IPs. -/
def ipEntries (T : Texts) (l : List AllowedIP) : List (List UInt8) := l.map fun a => T.addr a.addr ++ b!"/" ++ decimal a.cidr.toNat

theorem ipsText_eq (env : ShowEnv) (sep fin : UInt8) (l : List AllowedIP) :
    ipsText env sep fin l = (if l = [] then b!"(none)" else joinWith [sep] (ipEntries (textsOf env) l)) ++ [fin] := by
  induction l with
  | nil => rfl
  | cons a l ih =>
    cases l with
    | nil => simp [ipsText, ipEntries, joinWith, showDec_eq, textsOf]
    | cons b l =>
      rw [if_neg (by simp)]
      rw [if_neg (by simp)] at ih
      rw [show ipsText env sep fin (a :: b :: l) = ntopAddr env.out a.addr ++ c!"/" :: showDec a.cidr.toNat ++ [sep] ++
        ipsText env sep fin (b :: l) from rfl, ih]
      simp [ipEntries, joinWith, showDec_eq, textsOf]

theorem join_named (d : Device) (w : Bool) (x : List UInt8) (r : List (List UInt8)) :
    joinWith [9] (named d w (x :: r)) = ifaceCol d w ++ joinWith [9] (x :: r) := by
  cases w <;> simp [named, ifaceCol, joinWith]

theorem dumpPrint_eq (env : ShowEnv) (d : Device) (w : Bool) : dumpPrint env d w = table (dumpRows (textsOf env) d w) := by
  have hn : (fun r : List (List UInt8) => if w then d.name :: r else r) = named d w := rfl
  simp only [dumpPrint, table, dumpRows, hn, List.map_cons, List.map_map, unlines_cons, unlines_map]
  congr 1
  · simp only [deviceColumns, join_named]
    simp [joinWith, maybeKey_eq, markText_eq, showDec_eq]
  · congr 1
    funext p
    simp only [Function.comp, peerColumns, join_named, ipsText_eq, keyToBase64_rfc, endpointOrNone_eq, keepaliveText_eq, showDec_eq,
      maybeKey_eq, secText, ipEntries]
    simp only [joinWith, List.append_assoc, List.cons_append, List.nil_append]

theorem map_joinWith (f : UInt8 → UInt8) (sep : List UInt8) (l : List (List UInt8)) :
    (joinWith sep l).map f = joinWith (sep.map f) (l.map (·.map f)) := by
  induction l with
  | nil => rfl
  | cons a l ih => cases l with
    | nil => rfl
    | cons b l => simp only [joinWith, List.map_append, List.map_cons] at ih ⊢; rw [ih]

theorem map_id_of (f : UInt8 → UInt8) (l : List UInt8) (h : ∀ c ∈ l, f c = c) : l.map f = l := by
  induction l with
  | nil => rfl
  | cons a l ih => simp only [List.map_cons, h a (by simp), ih fun c hc => h c (by simp [hc])]

theorem decimal_digit (n : Nat) : ∀ c ∈ decimal n, isDigit c = true := (decimal_isDecimal n).2.1

theorem digit_sep {c : UInt8} (h : isDigit c = true) : c ≠ 44 ∧ c ≠ 47 ∧ c ≠ 9 ∧ c ≠ 10 ∧ c ≠ 58 ∧ c ≠ 93 := by
  refine ⟨?_, ?_, ?_, ?_, ?_, ?_⟩ <;> (rintro rfl; revert h; decide)

theorem ipEntry_no_comma {T : Texts} {E : Endpoint → Prop} (hT : Readable T E) (a : AllowedIP) :
    c!"," ∉ T.addr a.addr ++ b!"/" ++ decimal a.cidr.toNat := by
  intro h
  simp only [List.mem_append] at h
  rcases h with (h | h) | h
  · exact (hT.addr _).2.1 h
  · revert h; decide
  · exact (digit_sep (decimal_digit _ _ h)).1 rfl

/-- The `allowed-ips` column is the dump column with commas turned into spaces. -/
theorem ips_spaces {T : Texts} {E : Endpoint → Prop} (hT : Readable T E) (l : List AllowedIP) :
    (if l = [] then b!"(none)" else joinWith [c!" "] (ipEntries T l)) =
      commasToSpaces b!"allowed-ips" (if l = [] then b!"(none)" else joinWith b!"," (ipEntries T l)) := by
  rw [commasToSpaces, if_pos rfl]
  split
  · decide
  · rw [map_joinWith]
    congr 1
    simp only [ipEntries, List.map_map]
    apply List.map_congr_left
    intro a _
    simp only [Function.comp]
    symm
    apply map_id_of
    intro c hc
    rw [if_neg]
    rintro rfl
    exact ipEntry_no_comma hT a hc

theorem commas_other (param : List UInt8) (h : param ≠ b!"allowed-ips") (r : List (List UInt8)) : r.map (commasToSpaces param) = r := by
  rw [show commasToSpaces param = id from by funext c; rw [commasToSpaces, if_neg h]; rfl, List.map_id]

/-- Base64 text consists of alphabet characters and padding. -/
theorem rfc4648_mem (l : List UInt8) : ∀ c ∈ rfc4648 l, c ∈ b64Alphabet ++ b!"=" := by
  have ok : ∀ n, n < 64 → b64Char n ∈ b64Alphabet ++ b!"=" := fun n h =>
    (by decide : ∀ n : Fin 64, b64Char n ∈ b64Alphabet ++ b!"=") ⟨n, h⟩
  induction l using rfc4648.induct with
  | case1 a b c r ih =>
    have h1 := a.toNat_lt; have h2 := b.toNat_lt; have h3 := c.toNat_lt
    simp only [rfc4648, List.mem_cons]
    rintro x (rfl | rfl | rfl | rfl | hx)
    · exact ok _ (by omega)
    · exact ok _ (by omega)
    · exact ok _ (by omega)
    · exact ok _ (by omega)
    · exact ih x hx
  | case2 a b =>
    have h1 := a.toNat_lt; have h2 := b.toNat_lt
    simp only [rfc4648, List.mem_cons, List.not_mem_nil, or_false]
    rintro x (rfl | rfl | rfl | rfl)
    · exact ok _ (by omega)
    · exact ok _ (by omega)
    · exact ok _ (by omega)
    · decide
  | case3 a =>
    have h1 := a.toNat_lt
    simp only [rfc4648, List.mem_cons, List.not_mem_nil, or_false]
    rintro x (rfl | rfl | rfl | rfl)
    · exact ok _ (by omega)
    · exact ok _ (by omega)
    · decide
    · decide
  | case4 => simp [rfc4648]

theorem rfc_not_mem (l : List UInt8) (x : UInt8) (h : x ∉ b64Alphabet ++ b!"=") : x ∉ rfc4648 l := fun hm => h (rfc4648_mem l x hm)

theorem key_no_comma (k : Key) : commasToSpaces b!"allowed-ips" (rfc4648 k.toList) = rfc4648 k.toList := by
  rw [commasToSpaces, if_pos rfl]
  apply map_id_of
  intro c hc
  rw [if_neg]
  rintro rfl
  exact rfc_not_mem k.toList c!"," (by decide) hc

/-! ### Reading a table -/

theorem splitOn_ne_nil (sep : UInt8) (l : List UInt8) : splitOn sep l ≠ [] := by
  induction l with
  | nil => simp [splitOn]
  | cons c t ih =>
    simp only [splitOn]
    split
    · simp
    · split <;> simp

theorem splitOn_free (sep : UInt8) (x : List UInt8) (h : sep ∉ x) : splitOn sep x = [x] := by
  induction x with
  | nil => rfl
  | cons c t ih =>
    simp only [List.mem_cons, not_or] at h
    simp only [splitOn, if_neg (Ne.symm h.1), ih h.2]

theorem splitOn_append (sep : UInt8) (x r : List UInt8) (h : sep ∉ x) : splitOn sep (x ++ sep :: r) = x :: splitOn sep r := by
  induction x with
  | nil => simp [splitOn]
  | cons c t ih =>
    simp only [List.mem_cons, not_or] at h
    simp only [List.cons_append, splitOn, if_neg (Ne.symm h.1), ih h.2]

/-- Splitting at a separator undoes joining with it. -/
theorem splitOn_joinWith (sep : UInt8) (l : List (List UInt8)) (hl : l ≠ []) (h : ∀ x ∈ l, sep ∉ x) : splitOn sep (joinWith [sep] l) = l := by
  induction l with
  | nil => exact absurd rfl hl
  | cons a l ih =>
    cases l with
    | nil => exact splitOn_free sep a (h a (by simp))
    | cons b l =>
      have := ih (by simp) (fun x hx => h x (by simp [hx]))
      simp only [joinWith, List.append_assoc, List.cons_append, List.nil_append]
      rw [splitOn_append _ _ _ (h a (by simp))]
      simpa [joinWith] using this

theorem joinWith_inj (sep : UInt8) (l l' : List (List UInt8)) (hl : l ≠ []) (hl' : l' ≠ []) (h : ∀ x ∈ l, sep ∉ x) (h' : ∀ x ∈ l', sep ∉ x)
    (e : joinWith [sep] l = joinWith [sep] l') : l = l' := by
  rw [← splitOn_joinWith sep l hl h, e, splitOn_joinWith sep l' hl' h']

private theorem fileLines_cons_line (x r : List UInt8) (h : (10 : UInt8) ∉ x) : fileLines (x ++ 10 :: r) = (x ++ [10]) :: fileLines r := by
  induction x with
  | nil => simp [fileLines]
  | cons c t ih =>
    simp only [List.mem_cons, not_or] at h
    simp only [List.cons_append, fileLines, if_neg (Ne.symm h.1), ih h.2]

theorem fileLines_unlines (ls : List (List UInt8)) (h : ∀ l ∈ ls, (10 : UInt8) ∉ l) : fileLines (unlines ls) = ls.map (· ++ [10]) := by
  induction ls with
  | nil => rfl
  | cons a l ih =>
    rw [unlines_cons, List.append_assoc, show a ++ ([10] ++ unlines l) = a ++ 10 :: unlines l from rfl, fileLines_cons_line _ _ (h a (by simp)),
      ih fun x hx => h x (by simp [hx])]
    rfl

theorem mem_joinWith (sep : List UInt8) (l : List (List UInt8)) (x : UInt8) (h : x ∈ joinWith sep l) : x ∈ sep ∨ ∃ a ∈ l, x ∈ a := by
  induction l with
  | nil => simp [joinWith] at h
  | cons a l ih =>
    cases l with
    | nil => exact .inr ⟨a, by simp, h⟩
    | cons b l =>
      simp only [joinWith, List.mem_append] at h
      rcases h with (h | h) | h
      · exact .inr ⟨a, by simp, h⟩
      · exact .inl h
      · rcases ih h with h | ⟨y, hy, hx⟩
        · exact .inl h
        · exact .inr ⟨y, by simp [hy], hx⟩

/-- A table of columns without tabs and line feeds is read back. -/
theorem readTable_table (rows : List (List (List UInt8))) (h : ∀ r ∈ rows, r ≠ [] ∧ ∀ c ∈ r, OneColumn c) : readTable (table rows) = rows := by
  have hlf : ∀ l ∈ rows.map (joinWith [9]), (10 : UInt8) ∉ l := by
    intro l hl hm
    obtain ⟨r, hr, rfl⟩ := List.mem_map.1 hl
    rcases mem_joinWith _ _ _ hm with h1 | ⟨c, hc, h2⟩
    · revert h1; decide
    · exact ((h r hr).2 c hc).2 h2
  rw [readTable, table, fileLines_unlines _ hlf]
  simp only [List.map_map]
  conv => rhs; rw [← List.map_id rows]
  apply List.map_congr_left
  intro r hr
  simp only [Function.comp, List.dropLast_concat, id]
  exact splitOn_joinWith 9 r (h r hr).1 fun c hc => ((h r hr).2 c hc).1

/-! ### The columns of the dump -/

theorem oneColumn_digits {s : List UInt8} (h : ∀ c ∈ s, isDigit c = true) : OneColumn s :=
  ⟨fun hm => (digit_sep (h _ hm)).2.2.1 rfl, fun hm => (digit_sep (h _ hm)).2.2.2.1 rfl⟩

theorem OneColumn.append {a b : List UInt8} (h : OneColumn a) (h' : OneColumn b) : OneColumn (a ++ b) :=
  ⟨fun hm => (List.mem_append.1 hm).elim h.1 h'.1, fun hm => (List.mem_append.1 hm).elim h.2 h'.2⟩

instance (s : List UInt8) : Decidable (OneColumn s) := by unfold OneColumn; infer_instance

theorem oneColumn_key (k : Key) : OneColumn (rfc4648 k.toList) := ⟨rfc_not_mem _ _ (by decide), rfc_not_mem _ _ (by decide)⟩

theorem oneColumn_optKey (k : Key) (b : Bool) : OneColumn (optKey k b) := by
  cases b
  · show OneColumn b!"(none)"; decide
  · exact oneColumn_key k

theorem oneColumn_dec (n : Nat) : OneColumn (decimal n) := oneColumn_digits (decimal_digit n)

theorem oneColumn_hex (n : Nat) : OneColumn (hexadecimal n) := by
  have := (hexadecimal_isHexNum n).2.1
  refine ⟨fun h => ?_, fun h => ?_⟩ <;> (have := this _ h; revert this; decide)

theorem oneColumn_ips {T : Texts} {E : Endpoint → Prop} (hT : Readable T E) (l : List AllowedIP) :
    OneColumn (if l = [] then b!"(none)" else joinWith b!"," (ipEntries T l)) := by
  split
  · decide
  · have key : ∀ x, (x = 9 ∨ x = 10) → x ∉ joinWith b!"," (ipEntries T l) := by
      intro x hx hm
      rcases mem_joinWith _ _ _ hm with h | ⟨a, ha, h⟩
      · rcases hx with rfl | rfl <;> (revert h; decide)
      · obtain ⟨y, -, rfl⟩ := List.mem_map.1 ha
        have := (OneColumn.append (OneColumn.append (hT.addr y.addr).1 (b := b!"/") (by decide)) (oneColumn_dec y.cidr.toNat))
        rcases hx with rfl | rfl
        · exact this.1 h
        · exact this.2 h
    exact ⟨key _ (.inl rfl), key _ (.inr rfl)⟩

theorem deviceColumns_one (d : Device) : ∀ c ∈ deviceColumns d, OneColumn c := by
  intro c hc
  simp only [deviceColumns, List.mem_cons, List.not_mem_nil, or_false] at hc
  rcases hc with rfl | rfl | rfl | rfl
  · exact oneColumn_optKey _ _
  · exact oneColumn_optKey _ _
  · exact oneColumn_dec _
  · split
    · decide
    · exact OneColumn.append (a := b!"0x") (by decide) (oneColumn_hex _)

theorem peerColumns_one {T : Texts} {E : Endpoint → Prop} (hT : Readable T E) (p : Peer) (hp : p.endpoint ≠ .unset → E p.endpoint) :
    ∀ c ∈ peerColumns T p, OneColumn c := by
  intro c hc
  simp only [peerColumns, List.mem_cons, List.not_mem_nil, or_false] at hc
  rcases hc with rfl | rfl | rfl | rfl | rfl | rfl | rfl | rfl
  · exact oneColumn_key _
  · exact oneColumn_optKey _ _
  · split
    · decide
    · rename_i h; exact (hT.endpoint _ (hp h)).1
  · exact oneColumn_ips hT _
  · exact oneColumn_dec _
  · exact oneColumn_dec _
  · exact oneColumn_dec _
  · split
    · decide
    · exact oneColumn_dec _

/-! ### Recovering the facts -/

theorem decimal_inj {m n : Nat} (h : decimal m = decimal n) : m = n := by
  rw [(decimal_isDecimal m).2.2, (decimal_isDecimal n).2.2, h]

theorem hexadecimal_inj {m n : Nat} (h : hexadecimal m = hexadecimal n) : m = n := by
  rw [(hexadecimal_isHexNum m).2.2, (hexadecimal_isHexNum n).2.2, h]

theorem key_inj {k k' : Key} (h : rfc4648 k.toList = rfc4648 k'.toList) : k = k' := by
  rw [← keyToBase64_rfc, ← keyToBase64_rfc] at h
  have := (keyFromBase64_some true (keyToBase64 k) k).2 rfl
  rw [h, (keyFromBase64_some true (keyToBase64 k') k').2 rfl] at this
  simpa using this.symm

theorem key_ne_none (k : Key) : rfc4648 k.toList ≠ b!"(none)" := by
  intro h
  exact rfc_not_mem k.toList c!"(" (by decide) (h ▸ (by decide : c!"(" ∈ b!"(none)"))

theorem optKey_inj {k k' : Key} {b b' : Bool} (h : optKey k b = optKey k' b') : (if b then some k else none) = (if b' then some k' else none) := by
  cases b <;> cases b' <;> simp only [optKey, Bool.false_eq_true, if_false, if_true] at h ⊢
  · exact absurd h.symm (key_ne_none _)
  · exact absurd h (key_ne_none _)
  · rw [key_inj h]

theorem digits_ne_off {n : Nat} : decimal n ≠ b!"off" := by
  intro h
  have := decimal_digit n c!"o" (h ▸ (by decide : c!"o" ∈ b!"off"))
  revert this; decide

theorem ipEntry_inj {T : Texts} {E : Endpoint → Prop} (hT : Readable T E) (a b : AllowedIP)
    (h : T.addr a.addr ++ b!"/" ++ decimal a.cidr.toNat = T.addr b.addr ++ b!"/" ++ decimal b.cidr.toNat) : a = b := by
  have nd : ∀ n, c!"/" ∉ decimal n := fun n hm => (digit_sep (decimal_digit n _ hm)).2.1 rfl
  have h' := congrArg (splitOn c!"/") h
  simp only [List.append_assoc, List.cons_append, List.nil_append] at h'
  rw [splitOn_append _ _ _ (hT.addr a.addr).2.2, splitOn_append _ _ _ (hT.addr b.addr).2.2, splitOn_free _ _ (nd _), splitOn_free _ _ (nd _)] at h'
  simp only [List.cons.injEq, and_true] at h'
  obtain ⟨h1, h2⟩ := h'
  have e1 := hT.addr_inj _ _ h1
  have e2 := UInt8.toNat_inj.1 (decimal_inj h2)
  cases a; cases b; simp_all

theorem map_inj_of {α β : Type} {f : α → β} (hf : ∀ a b, f a = f b → a = b) {l l' : List α} (h : l.map f = l'.map f) : l = l' := by
  induction l generalizing l' with
  | nil => cases l' <;> simp_all
  | cons a l ih =>
    cases l' with
    | nil => simp at h
    | cons b l' =>
      simp only [List.map_cons, List.cons.injEq] at h
      rw [hf a b h.1, ih h.2]

theorem ipsColumn_inj {T : Texts} {E : Endpoint → Prop} (hT : Readable T E) (l l' : List AllowedIP)
    (h : (if l = [] then b!"(none)" else joinWith b!"," (ipEntries T l)) = (if l' = [] then b!"(none)" else joinWith b!"," (ipEntries T l'))) :
    l = l' := by
  have slash : ∀ l : List AllowedIP, l ≠ [] → c!"/" ∈ joinWith b!"," (ipEntries T l) := by
    intro l hl
    cases l with
    | nil => exact absurd rfl hl
    | cons a l =>
      cases l with
      | nil => simp [ipEntries, joinWith]
      | cons b l => simp [ipEntries, joinWith]
  by_cases h1 : l = [] <;> by_cases h2 : l' = []
  · rw [h1, h2]
  · rw [if_pos h1, if_neg h2] at h
    exact absurd (h ▸ slash l' h2) (by decide)
  · rw [if_neg h1, if_pos h2] at h
    exact absurd (h ▸ slash l h1) (by decide)
  · rw [if_neg h1, if_neg h2] at h
    have hne : ∀ l : List AllowedIP, l ≠ [] → ipEntries T l ≠ [] := fun l hl => by simpa [ipEntries] using hl
    have hc : ∀ l : List AllowedIP, ∀ x ∈ ipEntries T l, c!"," ∉ x := by
      intro l x hx
      obtain ⟨a, -, rfl⟩ := List.mem_map.1 hx
      exact ipEntry_no_comma hT a
    exact map_inj_of (ipEntry_inj hT) (joinWith_inj _ _ _ (hne _ h1) (hne _ h2) (hc _) (hc _) h)

theorem peerColumns_inj {T : Texts} {E : Endpoint → Prop} (hT : Readable T E) (p q : Peer)
    (hp : p.endpoint ≠ .unset → E p.endpoint) (hq : q.endpoint ≠ .unset → E q.endpoint)
    (tp : 0 ≤ p.handshakeSec ∧ p.handshakeSec < 2 ^ 64) (tq : 0 ≤ q.handshakeSec ∧ q.handshakeSec < 2 ^ 64)
    (h : peerColumns T p = peerColumns T q) : Peer.facts p = Peer.facts q := by
  simp only [peerColumns, List.cons.injEq, and_true] at h
  obtain ⟨h1, h2, h3, h4, h5, h6, h7, h8⟩ := h
  have e3 : p.endpoint = q.endpoint := by
    by_cases u1 : p.endpoint = .unset <;> by_cases u2 : q.endpoint = .unset
    · rw [u1, u2]
    · rw [if_pos u1, if_neg u2] at h3; exact absurd h3.symm (hT.endpoint _ (hq u2)).2
    · rw [if_neg u1, if_pos u2] at h3; exact absurd h3 (hT.endpoint _ (hp u1)).2
    · rw [if_neg u1, if_neg u2] at h3; exact hT.endpoint_inj _ _ (hp u1) (hq u2) h3
  have e5 := decimal_inj h5
  have e8 : p.keepalive = q.keepalive := by
    by_cases u1 : p.keepalive = 0 <;> by_cases u2 : q.keepalive = 0
    · rw [u1, u2]
    · rw [if_pos u1, if_neg u2] at h8; exact absurd h8.symm digits_ne_off
    · rw [if_neg u1, if_pos u2] at h8; exact absurd h8 digits_ne_off
    · rw [if_neg u1, if_neg u2] at h8; exact UInt16.toNat_inj.1 (decimal_inj h8)
  simp only [Peer.facts, PeerFacts.mk.injEq]
  refine ⟨key_inj h1, optKey_inj h2, e3, ipsColumn_inj hT _ _ h4, by omega, decimal_inj h6, decimal_inj h7, e8⟩

theorem deviceColumns_inj (d d' : Device) (h : deviceColumns d = deviceColumns d') :
    (if d.flags.hasPrivateKey then some d.privateKey else none) = (if d'.flags.hasPrivateKey then some d'.privateKey else none) ∧
    (if d.flags.hasPublicKey then some d.publicKey else none) = (if d'.flags.hasPublicKey then some d'.publicKey else none) ∧
    d.listenPort = d'.listenPort ∧ d.fwmark = d'.fwmark := by
  simp only [deviceColumns, List.cons.injEq, and_true] at h
  obtain ⟨h1, h2, h3, h4⟩ := h
  refine ⟨optKey_inj h1, optKey_inj h2, UInt16.toNat_inj.1 (decimal_inj h3), ?_⟩
  by_cases u1 : d.fwmark = 0 <;> by_cases u2 : d'.fwmark = 0
  · rw [u1, u2]
  · rw [if_pos u1, if_neg u2] at h4; simp at h4
  · rw [if_neg u1, if_pos u2] at h4; simp at h4
  · rw [if_neg u1, if_neg u2] at h4; exact UInt32.toNat_inj.1 (hexadecimal_inj (List.append_cancel_left h4))

end WG
