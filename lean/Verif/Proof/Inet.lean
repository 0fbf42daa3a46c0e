import Verif.Model.Inet
import Verif.Proof.Encoding
import Mathlib.Tactic.Conv
/-! The concrete glibc address models are inverse to each other: parsing a printed address gives it back. -/
namespace WG

/-! ### IPv4 -/

theorem digit_cond : ∀ d : Fin 10, (48 ≤ UInt8.ofNat (48 + d.val) ∧ UInt8.ofNat (48 + d.val) ≤ 57) ∧ (UInt8.ofNat (48 + d.val)).toNat - 48 = d.val := by decide

theorem pton4_digit (done : List UInt8) (cur : Nat) (saw : Bool) (d : Nat) (hd : d < 10) (s : CStr) (h0 : ¬ (saw = true ∧ cur = 0)) (h1 : cur * 10 + d ≤ 255) :
    pton4Loop done cur saw (UInt8.ofNat (48 + d) :: s) = pton4Loop done (cur * 10 + d) true s := by
  have := digit_cond ⟨d, hd⟩
  rw [pton4Loop, if_pos this.1]
  simp only [this.2]
  rw [if_neg h0, if_neg (by omega)]

theorem pton4_byte (done : List UInt8) (b : UInt8) (s : CStr) : pton4Loop done 0 false (decByte b ++ s) = pton4Loop done b.toNat true s := by
  have hb := b.toNat_lt
  simp only [decByte]
  split
  · rename_i h
    rw [List.singleton_append, pton4_digit _ _ _ _ h _ (by simp) (by omega)]
    simp
  · split
    · rename_i h1 h2
      simp only [List.cons_append, List.nil_append]
      rw [pton4_digit _ _ _ _ (by omega) _ (by simp) (by omega), pton4_digit _ _ _ _ (by omega) _ (by simp; omega) (by omega)]
      congr 1; omega
    · rename_i h1 h2
      simp only [List.cons_append, List.nil_append]
      rw [pton4_digit _ _ _ _ (by omega) _ (by simp) (by omega), pton4_digit _ _ _ _ (by omega) _ (by simp; omega) (by omega),
        pton4_digit _ _ _ _ (by omega) _ (by simp; omega) (by omega)]
      congr 1; omega

theorem pton4_dot (done : List UInt8) (cur : Nat) (s : CStr) (h : done.length < 3) :
    pton4Loop done cur true (c!"." :: s) = pton4Loop (done ++ [UInt8.ofNat cur]) 0 false s := by
  rw [pton4Loop]
  rw [if_neg (by decide), if_pos (by decide), if_neg (by omega)]

theorem quad_text (a b c d : UInt8) :
    pton4Loop [] 0 false (decByte a ++ c!"." :: decByte b ++ c!"." :: decByte c ++ c!"." :: decByte d) = some [a, b, c, d] := by
  simp only [List.append_assoc, List.cons_append]
  rw [pton4_byte, pton4_dot _ _ _ (by simp), pton4_byte, pton4_dot _ _ _ (by simp), pton4_byte, pton4_dot _ _ _ (by simp)]
  have := pton4_byte ([] ++ [UInt8.ofNat a.toNat] ++ [UInt8.ofNat b.toNat] ++ [UInt8.ofNat c.toNat]) d []
  rw [List.append_nil] at this
  rw [this, pton4Loop]
  simp

theorem vec4 (a : IP4) : [a[0], a[1], a[2], a[3]] = a.toList := by
  obtain ⟨⟨l⟩, h⟩ := a
  match l, h with
  | [x, y, z, w], _ => rfl

theorem pton4_ntop4 (a : IP4) : pton4 (ntop4 a) = some a := by
  simp only [pton4, ntop4, quad_text, Option.bind_some]
  rw [dif_pos (by simp)]
  congr 1
  apply Vector.toList_inj.1
  rw [← vec4 a]; simp

/-! ### IPv6 -/

theorem hexDigit_cond : ∀ d : Fin 16, hexDigitValue (if d.val < 10 then UInt8.ofNat (48 + d.val) else UInt8.ofNat (87 + d.val)) = some d.val := by decide

/-- The digit character used by `hexGroup`. -/
def hexChar (x : Nat) : UInt8 := if x < 10 then UInt8.ofNat (48 + x) else UInt8.ofNat (87 + x)

theorem hexChar_value (d : Nat) (h : d < 16) : hexDigitValue (hexChar d) = some d := hexDigit_cond ⟨d, h⟩

theorem pton6_digit (out : List UInt8) (val seen : Nat) (cp : Option Nat) (tok : CStr) (d : Nat) (hd : d < 16) (s : CStr) (hs : seen < 4) (hv : val * 16 + d ≤ 0xffff) :
    pton6Loop out val seen cp tok (hexChar d :: s) = pton6Loop out (val * 16 + d) (seen + 1) cp tok s := by
  rw [pton6Loop, hexChar_value d hd]
  simp only
  rw [if_neg (by omega), if_neg (by omega)]

theorem hexGroup_def (n : Nat) : hexGroup n =
    if n < 16 then [hexChar n] else if n < 256 then [hexChar (n / 16), hexChar (n % 16)]
    else if n < 4096 then [hexChar (n / 256), hexChar (n / 16 % 16), hexChar (n % 16)]
    else [hexChar (n / 4096), hexChar (n / 256 % 16), hexChar (n / 16 % 16), hexChar (n % 16)] := rfl

theorem pton6_group (out : List UInt8) (cp : Option Nat) (tok : CStr) (n : Nat) (hn : n < 65536) (s : CStr) :
    ∃ seen, 0 < seen ∧ pton6Loop out 0 0 cp tok (hexGroup n ++ s) = pton6Loop out n seen cp tok s := by
  rw [hexGroup_def]
  split
  · refine ⟨1, by decide, ?_⟩
    rw [List.singleton_append, pton6_digit _ _ _ _ _ _ (by omega) _ (by omega) (by omega)]
    simp
  · split
    · refine ⟨2, by decide, ?_⟩
      simp only [List.cons_append, List.nil_append]
      rw [pton6_digit _ _ _ _ _ _ (by omega) _ (by omega) (by omega), pton6_digit _ _ _ _ _ _ (by omega) _ (by omega) (by omega)]
      congr 1; omega
    · split
      · refine ⟨3, by decide, ?_⟩
        simp only [List.cons_append, List.nil_append]
        rw [pton6_digit _ _ _ _ _ _ (by omega) _ (by omega) (by omega), pton6_digit _ _ _ _ _ _ (by omega) _ (by omega) (by omega),
          pton6_digit _ _ _ _ _ _ (by omega) _ (by omega) (by omega)]
        congr 1; omega
      · refine ⟨4, by decide, ?_⟩
        simp only [List.cons_append, List.nil_append]
        rw [pton6_digit _ _ _ _ _ _ (by omega) _ (by omega) (by omega), pton6_digit _ _ _ _ _ _ (by omega) _ (by omega) (by omega),
          pton6_digit _ _ _ _ _ _ (by omega) _ (by omega) (by omega), pton6_digit _ _ _ _ _ _ (by omega) _ (by omega) (by omega)]
        congr 1; omega

/-- The bytes of 16-bit groups. -/
def groupBytes (gs : List Nat) : List UInt8 := gs.flatMap fun g => [UInt8.ofNat (g / 256), UInt8.ofNat (g % 256)]

theorem groupBytes_length (gs : List Nat) : (groupBytes gs).length = 2 * gs.length := by
  induction gs with
  | nil => rfl
  | cons g gs ih => simp only [groupBytes, List.flatMap_cons, List.length_append] at ih ⊢; simp [ih]; omega

theorem pton6_colon (out : List UInt8) (val seen : Nat) (cp : Option Nat) (tok s : CStr) (hs : 0 < seen) (hne : s ≠ []) (hl : out.length + 2 ≤ 16) :
    pton6Loop out val seen cp tok (c!":" :: s) = pton6Loop (out ++ [UInt8.ofNat (val / 256), UInt8.ofNat (val % 256)]) 0 0 cp s s := by
  rw [pton6Loop]
  simp only [show hexDigitValue c!":" = none by decide]
  rw [if_pos trivial, if_neg (by omega), if_neg hne, if_neg (by omega)]

theorem hexGroup_ne_nil (n : Nat) : hexGroup n ≠ [] := by
  rw [hexGroup_def]; repeat' split
  all_goals simp

theorem colonJoin_ne_nil (gs : List Nat) (h : gs ≠ []) : colonJoin (gs.map hexGroup) ≠ [] := by
  match gs, h with
  | [g], _ => exact hexGroup_ne_nil g
  | g :: g' :: r, _ => simp [colonJoin]

/-- Reading groups up to the end of the text. -/
theorem pton6_groups_end (gs : List Nat) (hg : ∀ g ∈ gs, g < 65536) (out : List UInt8) (cp : Option Nat) (tok : CStr) (hl : out.length + 2 * gs.length ≤ 16) :
    pton6Loop out 0 0 cp tok (colonJoin (gs.map hexGroup)) = pton6Finish (out ++ groupBytes gs) cp := by
  induction gs generalizing out tok with
  | nil => simp [colonJoin, pton6Loop, groupBytes]
  | cons g gs ih =>
    have hgl := hg g (by simp)
    simp only [List.length_cons] at hl
    cases gs with
    | nil =>
      obtain ⟨seen, hs, h⟩ := pton6_group out cp tok g hgl []
      rw [List.append_nil] at h
      simp only [List.map_cons, List.map_nil, colonJoin, h, pton6Loop]
      rw [if_pos hs, if_neg (by omega)]
      simp [groupBytes]
    | cons g' gs =>
      simp only [List.map_cons, colonJoin]
      obtain ⟨seen, hs, h⟩ := pton6_group out cp tok g hgl (c!":" :: colonJoin ((g' :: gs).map hexGroup))
      simp only [List.map_cons] at h
      rw [h, pton6_colon _ _ _ _ _ _ hs (by have := colonJoin_ne_nil (g' :: gs) (by simp); simpa using this) (by omega)]
      have := ih (fun x hx => hg x (by simp [hx])) (out ++ [UInt8.ofNat (g / 256), UInt8.ofNat (g % 256)]) (colonJoin ((g' :: gs).map hexGroup)) (by simp at hl ⊢; omega)
      simp only [List.map_cons] at this
      rw [this]
      simp [groupBytes]

/-- Reading groups up to a double colon. -/
theorem pton6_groups_dbl (gs : List Nat) (hne : gs ≠ []) (hg : ∀ g ∈ gs, g < 65536) (out : List UInt8) (tok rest : CStr) (hl : out.length + 2 * gs.length ≤ 16) :
    pton6Loop out 0 0 none tok (colonJoin (gs.map hexGroup) ++ c!":" :: c!":" :: rest) =
      pton6Loop (out ++ groupBytes gs) 0 0 (some (out ++ groupBytes gs).length) rest rest := by
  induction gs generalizing out tok with
  | nil => exact absurd rfl hne
  | cons g gs ih =>
    have hgl := hg g (by simp)
    simp only [List.length_cons] at hl
    cases gs with
    | nil =>
      obtain ⟨seen, hs, h⟩ := pton6_group out none tok g hgl (c!":" :: c!":" :: rest)
      simp only [List.map_cons, List.map_nil, colonJoin, h]
      rw [pton6_colon _ _ _ _ _ _ hs (by simp) (by omega), pton6Loop]
      simp only [show hexDigitValue c!":" = none by decide]
      rw [if_pos trivial, if_pos trivial, if_neg (by simp)]
      simp [groupBytes]
    | cons g' gs =>
      simp only [List.map_cons, colonJoin, List.append_assoc, List.cons_append]
      obtain ⟨seen, hs, h⟩ := pton6_group out none tok g hgl (c!":" :: (colonJoin ((g' :: gs).map hexGroup) ++ c!":" :: c!":" :: rest))
      simp only [List.map_cons] at h
      rw [h, pton6_colon _ _ _ _ _ _ hs (by simp) (by omega)]
      have := ih (by simp) (fun x hx => hg x (by simp [hx])) (out ++ [UInt8.ofNat (g / 256), UInt8.ofNat (g % 256)]) (colonJoin ((g' :: gs).map hexGroup) ++ c!":" :: c!":" :: rest) (by simp at hl ⊢; omega)
      simp only [List.map_cons] at this
      rw [this]
      simp [groupBytes]

theorem list_16 (l : List UInt8) (h : l.length = 16) : ∃ a0 a1 a2 a3 a4 a5 a6 a7 a8 a9 a10 a11 a12 a13 a14 a15, l = [a0, a1, a2, a3, a4, a5, a6, a7, a8, a9, a10, a11, a12, a13, a14, a15] := by
  match l, h with
  | [a0, a1, a2, a3, a4, a5, a6, a7, a8, a9, a10, a11, a12, a13, a14, a15], _ => exact ⟨a0, a1, a2, a3, a4, a5, a6, a7, a8, a9, a10, a11, a12, a13, a14, a15, rfl⟩

theorem byte_split (x y : UInt8) : UInt8.ofNat ((x.toNat * 256 + y.toNat) / 256) = x ∧ UInt8.ofNat ((x.toNat * 256 + y.toNat) % 256) = y := by
  have hx := x.toNat_lt; have hy := y.toNat_lt
  constructor
  · rw [show (x.toNat * 256 + y.toNat) / 256 = x.toNat by omega]; simp
  · rw [show (x.toNat * 256 + y.toNat) % 256 = y.toNat by omega]; simp

theorem groupBytes_groupsOf (a : IP6) : groupBytes (groupsOf a) = a.toList := by
  obtain ⟨⟨l⟩, h⟩ := a
  obtain ⟨a0, a1, a2, a3, a4, a5, a6, a7, a8, a9, a10, a11, a12, a13, a14, a15, rfl⟩ := list_16 l h
  simp only [groupsOf, groupBytes, List.range, List.range.loop, List.map_cons, List.map_nil, List.flatMap_cons, List.flatMap_nil, List.append_nil]
  simp only [Nat.reduceMul, Nat.reduceAdd, Vector.toList_mk, List.getD_cons_succ, List.getD_cons_zero, byte_split]
  rfl

theorem groupsOf_lt (a : IP6) : ∀ g ∈ groupsOf a, g < 65536 := by
  intro g hg
  simp only [groupsOf, List.mem_map] at hg
  obtain ⟨i, -, rfl⟩ := hg
  have h1 := (a.toList.getD (2 * i) 0).toNat_lt
  have h2 := (a.toList.getD (2 * i + 1) 0).toNat_lt
  omega

theorem groupsOf_length (a : IP6) : (groupsOf a).length = 8 := by simp [groupsOf]

theorem zeroRun_spec (l : List Nat) : zeroRun l ≤ l.length ∧ l.take (zeroRun l) = List.replicate (zeroRun l) 0 := by
  induction l with
  | nil => simp [zeroRun]
  | cons x l ih =>
    cases x with
    | zero => simp [zeroRun, List.replicate_succ, ih.1, ih.2]
    | succ x => simp [zeroRun]

theorem bestRun_spec (ws : List Nat) (b n : Nat) (h : bestRun ws = some (b, n)) :
    2 ≤ n ∧ n ≤ ws.length - b ∧ (ws.drop b).take n = List.replicate n 0 := by
  have key : ∀ (is : List Nat) (best : Option (Nat × Nat)),
      (∀ x y, best = some (x, y) → 2 ≤ y ∧ y ≤ ws.length - x ∧ (ws.drop x).take y = List.replicate y 0) →
      ∀ x y, is.foldl (fun best i =>
        let n := zeroRun (ws.drop i)
        if 2 ≤ n then
          match best with
          | none => some (i, n)
          | some (_, m) => if m < n then some (i, n) else best
        else best) best = some (x, y) → 2 ≤ y ∧ y ≤ ws.length - x ∧ (ws.drop x).take y = List.replicate y 0 := by
    intro is
    induction is with
    | nil => intro best hb x y h; exact hb x y h
    | cons i is ih =>
      intro best hb x y h
      simp only [List.foldl_cons] at h
      refine ih _ ?_ x y h
      intro x' y' h'
      have hz := zeroRun_spec (ws.drop i)
      have hl : zeroRun (ws.drop i) ≤ ws.length - i := by simpa using hz.1
      split at h'
      · rename_i h2
        split at h'
        · simp only [Option.some.injEq, Prod.mk.injEq] at h'
          obtain ⟨rfl, rfl⟩ := h'
          exact ⟨h2, hl, hz.2⟩
        · split at h'
          · simp only [Option.some.injEq, Prod.mk.injEq] at h'
            obtain ⟨rfl, rfl⟩ := h'
            exact ⟨h2, hl, hz.2⟩
          · exact hb x' y' h'
      · exact hb x' y' h'
  exact key _ none (by simp) b n h

theorem groupBytes_append (a b : List Nat) : groupBytes (a ++ b) = groupBytes a ++ groupBytes b := by simp [groupBytes]

theorem groupBytes_zero (n : Nat) : groupBytes (List.replicate n 0) = List.replicate (2 * n) 0 := by
  induction n with
  | zero => rfl
  | succ n ih =>
    have : groupBytes (List.replicate (n + 1) 0) = 0 :: 0 :: groupBytes (List.replicate n 0) := rfl
    rw [this, ih, show 2 * (n + 1) = 2 * n + 1 + 1 by omega, List.replicate_succ, List.replicate_succ]

theorem split_zero (ws : List Nat) (b n : Nat) (h : (ws.drop b).take n = List.replicate n 0) :
    groupBytes ws = groupBytes (ws.take b) ++ List.replicate (2 * n) 0 ++ groupBytes (ws.drop (b + n)) := by
  have e : ws = ws.take b ++ ((ws.drop b).take n ++ ws.drop (b + n)) := by
    rw [← List.drop_drop, List.take_append_drop, List.take_append_drop]
  conv_lhs => rw [e]
  rw [groupBytes_append, groupBytes_append, h, groupBytes_zero, List.append_assoc]

theorem finish_some (pre suf : List UInt8) (z : Nat) (hz : 0 < z) (h : pre.length + z + suf.length = 16) :
    pton6Finish (pre ++ suf) (some pre.length) = some (pre ++ List.replicate z 0 ++ suf) := by
  simp only [pton6Finish]
  rw [if_neg (by simp; omega)]
  congr 1
  have : 16 - (pre ++ suf).length = z := by simp; omega
  rw [this]
  simp

/-- Decimal digits of a byte, read as hexadecimal digits, then a dot. -/
theorem pton6_quad (out : List UInt8) (cp : Option Nat) (b : UInt8) (rest tok : CStr) (hl : out.length + 4 ≤ 16) (q : IP4) (hq : pton4 tok = some q) :
    pton6Loop out 0 0 cp tok (decByte b ++ c!"." :: rest) = pton6Finish (out ++ q.toList) cp := by
  have hb := b.toNat_lt
  have dot : ∀ v s, pton6Loop out v s cp tok (c!"." :: rest) = pton6Finish (out ++ q.toList) cp := by
    intro v s
    rw [pton6Loop]
    simp only [show hexDigitValue c!"." = none by decide]
    rw [if_neg (by decide), if_pos (by exact ⟨trivial, hl⟩), hq]
  have hc : ∀ x, x < 10 → UInt8.ofNat (48 + x) = hexChar x := by intro x hx; simp [hexChar, hx]
  simp only [decByte]
  split
  · rename_i h
    rw [hc _ h, List.singleton_append, pton6_digit _ _ _ _ _ _ (by omega) _ (by omega) (by omega), dot]
  · split
    · rename_i h1 h2
      rw [hc _ (by omega), hc _ (by omega)]
      simp only [List.cons_append, List.nil_append]
      rw [pton6_digit _ _ _ _ _ _ (by omega) _ (by omega) (by omega), pton6_digit _ _ _ _ _ _ (by omega) _ (by omega) (by omega), dot]
    · rename_i h1 h2
      rw [hc _ (by omega), hc _ (by omega), hc _ (by omega)]
      simp only [List.cons_append, List.nil_append]
      rw [pton6_digit _ _ _ _ _ _ (by omega) _ (by omega) (by omega), pton6_digit _ _ _ _ _ _ (by omega) _ (by omega) (by omega),
        pton6_digit _ _ _ _ _ _ (by omega) _ (by omega) (by omega), dot]

theorem dblColon_start (rest : CStr) : pton6Loop [] 0 0 none (58 :: rest) (58 :: rest) = pton6Loop [] 0 0 (some 0) rest rest := by
  rw [pton6Loop]
  simp only [show hexDigitValue (58 : UInt8) = none by decide]
  rw [if_pos trivial, if_pos trivial, if_neg (by simp)]; rfl

/-- `inet_pton6` before the final length check. -/
def pton6Raw (s : CStr) : Option (List UInt8) :=
  match s with
  | [] => none
  | 58 :: 58 :: t => pton6Loop [] 0 0 none (58 :: t) (58 :: t)
  | 58 :: _ => none
  | s => pton6Loop [] 0 0 none s s

theorem pton6_of_raw (s : CStr) (a : IP6) (h : pton6Raw s = some a.toList) : pton6 s = some a := by
  have : pton6 s = (pton6Raw s).bind fun l => if h : l.length = 16 then some ⟨l.toArray, by simpa using h⟩ else none := rfl
  rw [this, h]
  simp only [Option.bind_some]
  rw [dif_pos (by simp)]
  congr 1

theorem raw_dbl (t : CStr) : pton6Raw (c!":" :: c!":" :: t) = pton6Loop [] 0 0 (some 0) t t := dblColon_start t

theorem hexChar_ne_colon : ∀ d : Fin 16, hexChar d ≠ 58 := by decide

theorem hexGroup_head (n : Nat) (h : n < 65536) : ∃ d t, d < 16 ∧ hexGroup n = hexChar d :: t := by
  rw [hexGroup_def]; repeat' split
  · exact ⟨n, [], by omega, rfl⟩
  · exact ⟨_, _, by omega, rfl⟩
  · exact ⟨_, _, by omega, rfl⟩
  · exact ⟨_, _, by omega, rfl⟩

theorem raw_hex (s : CStr) (d : Nat) (t : CStr) (hd : d < 16) (hs : s = hexChar d :: t) : pton6Raw s = pton6Loop [] 0 0 none s s := by
  have hne := hexChar_ne_colon ⟨d, hd⟩
  simp only at hne
  subst hs
  unfold pton6Raw
  split
  · simp_all
  · simp_all
  · simp_all
  · rfl

theorem colonJoin_head (gs : List Nat) (hne : gs ≠ []) (hg : ∀ g ∈ gs, g < 65536) : ∃ d t, d < 16 ∧ colonJoin (gs.map hexGroup) = hexChar d :: t := by
  match gs, hne with
  | [g], _ =>
    obtain ⟨d, t, h1, h2⟩ := hexGroup_head g (hg g (by simp))
    exact ⟨d, t, h1, h2⟩
  | g :: g' :: r, _ =>
    obtain ⟨d, t, h1, h2⟩ := hexGroup_head g (hg g (by simp))
    exact ⟨d, t ++ c!":" :: colonJoin ((g' :: r).map hexGroup), h1, by simp only [List.map_cons, colonJoin, h2, List.cons_append]⟩

theorem pton4_quad (a b c d : UInt8) : ∃ q, pton4 (decByte a ++ c!"." :: decByte b ++ c!"." :: decByte c ++ c!"." :: decByte d) = some q ∧ q.toList = [a, b, c, d] := by
  refine ⟨#v[a, b, c, d], ?_, rfl⟩
  have := pton4_ntop4 #v[a, b, c, d]
  exact this

theorem pton6_ntop6 (a : IP6) : pton6 (ntop6 a) = some a := by
  apply pton6_of_raw
  have hlt := groupsOf_lt a
  have hlen := groupsOf_length a
  rw [← groupBytes_groupsOf a]
  simp only [ntop6]
  split
  · rename_i hbr
    obtain ⟨d, t, hd, hh⟩ := colonJoin_head (groupsOf a) (by intro h; rw [h] at hlen; cases hlen) hlt
    rw [raw_hex _ d t hd hh, pton6_groups_end _ hlt _ _ _ (by simp [hlen])]
    simp only [List.nil_append, pton6Finish]
    rw [if_pos (by rw [groupBytes_length, hlen])]
  · rename_i b n hbr
    obtain ⟨hn, hle, hz⟩ := bestRun_spec _ _ _ hbr
    have hsplit := split_zero _ b n hz
    rw [hlen] at hle
    split
    · rename_i h
      obtain ⟨rfl, rfl⟩ := h
      have e : b!"::" ++ quadTail a = c!":" :: c!":" :: (decByte a[12] ++ c!"." :: decByte a[13] ++ c!"." :: decByte a[14] ++ c!"." :: decByte a[15]) := rfl
      rw [e, raw_dbl]
      obtain ⟨q, hq1, hq2⟩ := pton4_quad a[12] a[13] a[14] a[15]
      have := pton6_quad [] (some 0) a[12] (decByte a[13] ++ c!"." :: decByte a[14] ++ c!"." :: decByte a[15]) _ (by simp) q hq1
      simp only [List.append_assoc, List.cons_append] at this ⊢
      rw [this, hq2, List.nil_append]
      have hf := finish_some [] [a[12], a[13], a[14], a[15]] 12 (by decide) rfl
      simp only [List.nil_append, List.length_nil] at hf
      rw [hf, hsplit]
      have hd : groupBytes ((groupsOf a).drop (0 + 6)) = [a[12], a[13], a[14], a[15]] := by
        have h1 : groupBytes ((groupsOf a).drop 6) = (groupBytes (groupsOf a)).drop 12 := by
          conv_rhs => rw [← List.take_append_drop 6 (groupsOf a), groupBytes_append]
          rw [List.drop_left' (by rw [groupBytes_length]; simp [hlen])]
        rw [Nat.zero_add, h1, groupBytes_groupsOf]
        obtain ⟨⟨l⟩, h⟩ := a
        obtain ⟨a0, a1, a2, a3, a4, a5, a6, a7, a8, a9, a10, a11, a12, a13, a14, a15, rfl⟩ := list_16 l h
        rfl
      rw [hd]
      simp [groupBytes]
    · split
      · rename_i h0 h
        obtain ⟨rfl, rfl, hff⟩ := h
        have e : b!"::ffff:" ++ quadTail a = c!":" :: c!":" :: (hexGroup 65535 ++ c!":" :: (decByte a[12] ++ c!"." :: decByte a[13] ++ c!"." :: decByte a[14] ++ c!"." :: decByte a[15])) := rfl
        rw [e, raw_dbl]
        obtain ⟨seen, hs, h1⟩ := pton6_group [] (some 0) (hexGroup 65535 ++ c!":" :: (decByte a[12] ++ c!"." :: decByte a[13] ++ c!"." :: decByte a[14] ++ c!"." :: decByte a[15])) 65535 (by decide) (c!":" :: (decByte a[12] ++ c!"." :: decByte a[13] ++ c!"." :: decByte a[14] ++ c!"." :: decByte a[15]))
        rw [h1, pton6_colon _ _ _ _ _ _ hs (by simp) (by simp)]
        obtain ⟨q, hq1, hq2⟩ := pton4_quad a[12] a[13] a[14] a[15]
        have := pton6_quad [255, 255] (some 0) a[12] (decByte a[13] ++ c!"." :: decByte a[14] ++ c!"." :: decByte a[15]) _ (by simp) q hq1
        have e2 : ([] : List UInt8) ++ [UInt8.ofNat (65535 / 256), UInt8.ofNat (65535 % 256)] = [255, 255] := by decide
        rw [e2]
        simp only [List.append_assoc, List.cons_append] at this ⊢
        rw [this, hq2]
        have hf := finish_some [] [(255 : UInt8), 255, a[12], a[13], a[14], a[15]] 10 (by decide) rfl
        simp only [List.nil_append, List.length_nil] at hf ⊢
        rw [hf, hsplit]
        have hd : groupBytes ((groupsOf a).drop (0 + 5)) = [(255 : UInt8), 255, a[12], a[13], a[14], a[15]] := by
          have h1 : groupBytes ((groupsOf a).drop 5) = (groupBytes (groupsOf a)).drop 10 := by
            conv_rhs => rw [← List.take_append_drop 5 (groupsOf a), groupBytes_append]
            rw [List.drop_left' (by rw [groupBytes_length]; simp [hlen])]
          rw [Nat.zero_add, h1, groupBytes_groupsOf]
          obtain ⟨⟨l⟩, h⟩ := a
          obtain ⟨a0, a1, a2, a3, a4, a5, a6, a7, a8, a9, a10, a11, a12, a13, a14, a15, rfl⟩ := list_16 l h
          have hg5 : a10.toNat * 256 + a11.toNat = 65535 := hff
          have h10 := a10.toNat_lt; have h11 := a11.toNat_lt
          have e1 : a10 = 255 := UInt8.toNat_inj.1 (by show a10.toNat = 255; omega)
          have e2 : a11 = 255 := UInt8.toNat_inj.1 (by show a11.toNat = 255; omega)
          subst e1; subst e2
          rfl
        rw [hd]
        simp [groupBytes]
      · rw [List.append_assoc]
        have e : b!"::" ++ colonJoin ((List.drop (b + n) (groupsOf a)).map hexGroup) = c!":" :: c!":" :: colonJoin ((List.drop (b + n) (groupsOf a)).map hexGroup) := rfl
        rw [e]
        have hgt : ∀ g ∈ (groupsOf a).take b, g < 65536 := fun g hg => hlt g (List.mem_of_mem_take hg)
        have hgd : ∀ g ∈ (groupsOf a).drop (b + n), g < 65536 := fun g hg => hlt g (List.mem_of_mem_drop hg)
        have hlt' : ((groupsOf a).take b).length = b := by simp [hlen]; omega
        have hld : ((groupsOf a).drop (b + n)).length = 8 - (b + n) := by simp [hlen]
        have step : pton6Raw (colonJoin (((groupsOf a).take b).map hexGroup) ++ c!":" :: c!":" :: colonJoin ((List.drop (b + n) (groupsOf a)).map hexGroup)) =
            pton6Loop (groupBytes ((groupsOf a).take b)) 0 0 (some (groupBytes ((groupsOf a).take b)).length)
              (colonJoin ((List.drop (b + n) (groupsOf a)).map hexGroup)) (colonJoin ((List.drop (b + n) (groupsOf a)).map hexGroup)) := by
          by_cases hb0 : (groupsOf a).take b = []
          · rw [hb0]
            simp only [List.map_nil, colonJoin, List.nil_append]
            rw [raw_dbl]; rfl
          · obtain ⟨d, t, hd, hh⟩ := colonJoin_head _ hb0 hgt
            rw [raw_hex _ d _ hd (by rw [hh]; rfl), pton6_groups_dbl _ hb0 hgt _ _ _ (by simp [hlt']; omega)]
            simp
        rw [step, pton6_groups_end _ hgd _ _ _ (by rw [groupBytes_length, hlt', hld]; omega)]
        rw [finish_some _ _ (2 * n) (by omega) (by rw [groupBytes_length, groupBytes_length, hlt', hld]; omega), hsplit]

/-! ### characters -/

/-- Characters of printed addresses. -/
def addrChars : List UInt8 := b!"0123456789abcdef.:"

theorem decByte_chars (b : UInt8) : ∀ c ∈ decByte b, c ∈ b!"0123456789" := by
  have : ∀ b : UInt8, ∀ c ∈ decByte b, c ∈ b!"0123456789" := by apply forall_u8; decide +kernel
  exact this b

theorem decByte_ne_nil (b : UInt8) : decByte b ≠ [] := by
  simp only [decByte]; repeat' split
  all_goals simp

theorem quad_chars (a b c d : UInt8) : ∀ x ∈ decByte a ++ c!"." :: decByte b ++ c!"." :: decByte c ++ c!"." :: decByte d, x ∈ b!"0123456789." := by
  have h : ∀ (b : UInt8) x, x ∈ decByte b → x ∈ b!"0123456789." := by
    intro b x hx
    have := decByte_chars b x hx
    revert this; revert x; intro x _ hx; revert hx; simp only [List.mem_cons, List.not_mem_nil, or_false]
    rintro (h | h | h | h | h | h | h | h | h | h) <;> simp [h]
  intro x hx
  simp only [List.mem_append, List.mem_cons] at hx
  rcases hx with ((hx | rfl | hx) | rfl | hx) | rfl | hx
  · exact h _ _ hx
  · decide
  · exact h _ _ hx
  · decide
  · exact h _ _ hx
  · decide
  · exact h _ _ hx

theorem ntop4_chars (a : IP4) : ∀ c ∈ ntop4 a, c ∈ b!"0123456789." := quad_chars _ _ _ _

theorem sub_chars {x : UInt8} (h : x ∈ b!"0123456789.") : x ∈ addrChars := by
  simp only [List.mem_cons, List.not_mem_nil, or_false] at h
  rcases h with h | h | h | h | h | h | h | h | h | h | h <;> (rw [h]; decide)

theorem hexChar_mem : ∀ d : Fin 16, hexChar d ∈ addrChars := by decide

theorem hexGroup_chars (n : Nat) (hn : n < 65536) : ∀ c ∈ hexGroup n, c ∈ addrChars := by
  have hm : ∀ x, x < 16 → hexChar x ∈ addrChars := fun x hx => hexChar_mem ⟨x, hx⟩
  intro c hc
  rw [hexGroup_def] at hc
  repeat' split at hc
  all_goals simp only [List.mem_cons, List.not_mem_nil, or_false] at hc
  · rw [hc]; exact hm _ (by omega)
  · rcases hc with h | h <;> (rw [h]; exact hm _ (by omega))
  · rcases hc with h | h | h <;> (rw [h]; exact hm _ (by omega))
  · rcases hc with h | h | h | h <;> (rw [h]; exact hm _ (by omega))

theorem colonJoin_chars (gs : List Nat) (hg : ∀ g ∈ gs, g < 65536) : ∀ c ∈ colonJoin (gs.map hexGroup), c ∈ addrChars := by
  induction gs with
  | nil => simp [colonJoin]
  | cons g gs ih =>
    cases gs with
    | nil => simpa [colonJoin] using hexGroup_chars g (hg g (by simp))
    | cons g' gs =>
      intro c hc
      simp only [List.map_cons, colonJoin, List.mem_append, List.mem_cons] at hc
      rcases hc with hc | rfl | hc
      · exact hexGroup_chars g (hg g (by simp)) c hc
      · decide
      · exact ih (fun x hx => hg x (by simp [hx])) c (by simpa using hc)

theorem ntop6_chars (a : IP6) : ∀ c ∈ ntop6 a, c ∈ addrChars := by
  have hlt := groupsOf_lt a
  have hl : ∀ (w : List UInt8) (x : UInt8), w = b!"::" ∨ w = b!"::ffff:" → x ∈ w → x ∈ addrChars := by
    rintro w x (rfl | rfl) hx
    · simp only [List.mem_cons, List.not_mem_nil, or_false] at hx; rcases hx with h | h <;> (rw [h]; decide)
    · simp only [List.mem_cons, List.not_mem_nil, or_false] at hx; rcases hx with h | h | h | h | h | h | h <;> (rw [h]; decide)
  intro c hc
  simp only [ntop6] at hc
  split at hc
  · exact colonJoin_chars _ hlt c hc
  · split at hc
    · rcases List.mem_append.1 hc with hc | hc
      · exact hl _ c (Or.inl rfl) hc
      · exact sub_chars (quad_chars _ _ _ _ c hc)
    · split at hc
      · rcases List.mem_append.1 hc with hc | hc
        · exact hl _ c (Or.inr rfl) hc
        · exact sub_chars (quad_chars _ _ _ _ c hc)
      · rcases List.mem_append.1 hc with hc | hc
        · rcases List.mem_append.1 hc with hc | hc
          · exact colonJoin_chars _ (fun g hg => hlt g (List.mem_of_mem_take hg)) c hc
          · exact hl _ c (Or.inl rfl) hc
        · exact colonJoin_chars _ (fun g hg => hlt g (List.mem_of_mem_drop hg)) c hc

theorem ntop6_colon (a : IP6) : c!":" ∈ ntop6 a := by
  have hlen := groupsOf_length a
  simp only [ntop6]
  split
  · match groupsOf a, hlen with
    | g :: g' :: r, _ => simp [colonJoin]
  · split
    · simp
    · split
      · simp
      · simp

theorem ntop4_no_colon (a : IP4) : c!":" ∉ ntop4 a := fun h => absurd (ntop4_chars a _ h) (by decide)

end WG
