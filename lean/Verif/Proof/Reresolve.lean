import Verif.Spec.Reresolve
import Verif.Proof.WgJson
import Verif.Proof.Quick
/-! Proofs about contrib/reresolve-dns/reresolve-dns.sh (C92). -/
namespace WG.Reresolve
open WG WG.Spec
open WG.Quick (bodyLines strippedOf keyOf valueOf)

theorem tolower_eq : tolowerC = lower := rfl

/-! ### Searching the listing -/

def isSep (c : UInt8) : Bool := c == 9 || c == 10

theorem lower_sep : ∀ c : UInt8, isSep (lower c) = isSep c := by apply forall_u8; decide +kernel

theorem digitB_eq (c : UInt8) : matchAt.isDigitB c = isDigit c := by simp [matchAt.isDigitB, isDigit]

theorem split_unique {a b w t : CStr} {x : UInt8} (h : a ++ x :: b = w ++ 9 :: t) (ha : ∀ c ∈ a, isSep c = false) (hx : isSep x = true)
    (hw : ∀ c ∈ w, isSep c = false) : a = w ∧ x = 9 ∧ b = t := by
  have h1 := WgJson.takeWhile_stop (p := fun c => !isSep c) a x b (fun c hc => by simp [ha c hc]) (by simp [hx])
  have h2 := WgJson.takeWhile_stop (p := fun c => !isSep c) w 9 t (fun c hc => by simp [hw c hc]) (by decide)
  rw [h] at h1
  have e1 : a = w := h1.1.symm.trans h2.1
  have e2 : x :: b = 9 :: t := h1.2.symm.trans h2.2
  simp only [List.cons.injEq] at e2
  exact ⟨e1, e2⟩

theorem matchAt_some {P s d : CStr} (h : matchAt P s = some d) :
    ∃ w t, s = w ++ 9 :: t ∧ w.map lower = P.map lower ∧ d = t.takeWhile isDigit ∧ d ≠ [] := by
  unfold matchAt at h
  split at h
  · rename_i hc
    split at h
    · rename_i t ht
      refine ⟨s.take P.length, t, ?_, ?_, ?_⟩
      · rw [← ht, List.take_append_drop]
      · have := hc.1
        simp only [strcaseeq, tolower_eq, beq_iff_eq] at this
        exact this
      · simp only at h
        split at h
        · exact absurd h (by simp)
        · rename_i hd
          simp only [Option.some.injEq] at h
          have e : (fun c => matchAt.isDigitB c) = isDigit := funext digitB_eq
          subst h
          exact ⟨by rw [← e], hd⟩
    · exact absurd h (by simp)
  · exact absurd h (by simp)

theorem matchAt_of {P w t : CStr} (hw : w.map lower = P.map lower) (hd : t.takeWhile isDigit ≠ []) :
    matchAt P (w ++ 9 :: t) = some (t.takeWhile isDigit) := by
  have hl : w.length = P.length := by simpa using congrArg List.length hw
  have e : (fun c => matchAt.isDigitB c) = isDigit := funext digitB_eq
  unfold matchAt
  rw [← hl, List.take_left, List.drop_left, if_pos ⟨by simp [strcaseeq, tolower_eq, hw], by simp⟩]
  simp only
  rw [show t.takeWhile matchAt.isDigitB = t.takeWhile isDigit by rw [← e]]
  rw [if_neg hd]

theorem no_sep_of_lower {w P : CStr} (h : w.map lower = P.map lower) (hP : ∀ c ∈ P, isSep c = false) : ∀ c ∈ w, isSep c = false := by
  intro c hc
  have : lower c ∈ P.map lower := h ▸ List.mem_map_of_mem hc
  obtain ⟨x, hx, e⟩ := List.mem_map.1 this
  rw [← lower_sep, ← e, lower_sep]
  exact hP x hx

theorem matchAt_none {P s : CStr} (hP : ∀ c ∈ P, isSep c = false)
    (h : ∀ w t, s = w ++ 9 :: t → (∀ c ∈ w, isSep c = false) → w.map lower ≠ P.map lower) : matchAt P s = none := by
  cases hm : matchAt P s with
  | none => rfl
  | some d =>
    obtain ⟨w, t, e, hw, -, -⟩ := matchAt_some hm
    exact absurd hw (h w t e (no_sep_of_lower hw hP))

theorem search_nil {P : CStr} (hP : ∀ c ∈ P, isSep c = false) : search P [] = none := by
  rw [search]
  apply matchAt_none hP
  intro w t e
  simp at e

theorem search_skip {P : CStr} (hP : ∀ c ∈ P, isSep c = false) (K rest : CStr) (hK : ∀ c ∈ K, isSep c = false) (hl : K.length < P.length) :
    search P (K ++ 9 :: rest) = search P rest := by
  have drop9 : ∀ P : CStr, (∀ c ∈ P, isSep c = false) → P ≠ [] → search P (9 :: rest) = search P rest := by
    intro P hP hne
    rw [search, matchAt_none hP, Option.none_or]
    intro w t e hw hc
    have := split_unique (a := []) (x := 9) e (by simp) (by decide) hw
    rw [← this.1] at hc
    exact hne (by simpa using hc.symm)
  induction K with
  | nil => exact drop9 P hP (by intro h; simp [h] at hl)
  | cons c K ih =>
    rw [List.cons_append, search, matchAt_none hP, Option.none_or]
    · exact ih (fun x hx => hK x (by simp [hx])) (by simp at hl; omega)
    · intro w t e hw hc
      have := split_unique (a := c :: K) (x := 9) e hK (by decide) hw
      rw [← this.1] at hc
      have := congrArg List.length hc
      simp at this hl
      omega

theorem search_digits {P : CStr} (hP : ∀ c ∈ P, isSep c = false) (D tail : CStr) (hD : ∀ c ∈ D, isSep c = false)
    (ht : tail = [] ∨ ∃ r, tail = 10 :: r) : search P (D ++ tail) = search P (tail.drop 1) := by
  have no9 : ∀ D : CStr, (∀ c ∈ D, isSep c = false) → matchAt P (D ++ tail) = none := by
    intro D hD
    apply matchAt_none hP
    intro w t e hw hc
    rcases ht with rfl | ⟨r, rfl⟩
    · rw [List.append_nil] at e
      have := hD 9 (by rw [e]; simp)
      revert this; decide
    · have := split_unique (a := D) (x := 10) e hD (by decide) hw
      exact absurd this.2.1 (by decide)
  induction D with
  | nil =>
    rcases ht with rfl | ⟨r, rfl⟩
    · rfl
    · have h0 := no9 [] (by simp)
      rw [List.nil_append] at h0 ⊢
      rw [search, h0, Option.none_or]; rfl
  | cons c D ih =>
    have h0 := no9 (c :: D) hD
    rw [List.cons_append] at h0 ⊢
    rw [search, h0, Option.none_or]
    exact ih fun x hx => hD x (by simp [hx])

theorem digit_not_sep : ∀ c : UInt8, isDigit c = true → isSep c = false := by apply forall_u8; decide +kernel

/-- One line of the listing. -/
theorem search_line {P K : CStr} (hP : ∀ c ∈ P, isSep c = false) (hne : P ≠ []) (hK : ∀ c ∈ K, isSep c = false) (hl : K.length = P.length)
    (n : Nat) (tail : CStr) (ht : tail = [] ∨ ∃ r, tail = 10 :: r) :
    search P (K ++ 9 :: (decimal n ++ tail)) = if K.map lower = P.map lower then some (decimal n) else search P (tail.drop 1) := by
  have hD : ∀ c ∈ decimal n, isSep c = false := fun c hc => digit_not_sep c (decimal_digit n c hc)
  have hdig : (decimal n ++ tail).takeWhile isDigit = decimal n := by
    rcases ht with rfl | ⟨r, rfl⟩
    · rw [List.append_nil]; exact (WgJson.takeWhile_all _ (decimal_digit n)).1
    · exact (WgJson.takeWhile_stop _ 10 r (decimal_digit n) (by decide)).1
  cases K with
  | nil => exact absurd (List.length_eq_zero_iff.1 hl.symm) hne
  | cons c K =>
    rw [List.cons_append, search]
    by_cases h : (c :: K).map lower = P.map lower
    · have := matchAt_of (P := P) (w := c :: K) (t := decimal n ++ tail) h (by rw [hdig]; exact (decimal_isDecimal n).1)
      rw [List.cons_append] at this
      rw [this, hdig, if_pos h, Option.some_or]
    · have hnone : matchAt P (c :: (K ++ 9 :: (decimal n ++ tail))) = none := by
        apply matchAt_none hP
        intro w t e hw hc
        have := split_unique (a := c :: K) (x := 9) e hK (by decide) hw
        rw [← this.1] at hc
        exact h hc
      rw [hnone, Option.none_or, if_neg h, search_skip hP K _ (fun x hx => hK x (by simp [hx])) (by simp at hl; omega), search_digits hP _ _ hD ht]

theorem key_length (k : Key) : (rfc4648 k.toList).length = 44 := by rw [← keyToBase64_rfc, keyToBase64_length]

theorem b64_not_sep : ∀ c ∈ b64Alphabet ++ b!"=", isSep c = false := by decide
theorem b64_literal : ∀ c ∈ b64Alphabet ++ b!"=", ((97 ≤ tolowerC c && tolowerC c ≤ 122) || (48 ≤ c && c ≤ 57) || decide (c ∈ b!"+/=")) = true := by decide

theorem key_no_sep (k : Key) : ∀ c ∈ rfc4648 k.toList, isSep c = false := fun c hc => b64_not_sep c (rfc4648_mem _ c hc)

theorem key_nonempty (k : Key) : rfc4648 k.toList ≠ [] := by
  intro h
  have := key_length k
  rw [h] at this
  simp at this

theorem literal_key (k : Key) : literalKey (rfc4648 k.toList) = true := by
  rw [literalKey, List.all_eq_true]
  exact fun c hc => b64_literal c (rfc4648_mem _ c hc)

def lineOf (r : Key × Nat) : CStr := rfc4648 r.1.toList ++ 9 :: decimal r.2

theorem search_rows (k : Key) (rows : List (Key × Nat)) :
    search (rfc4648 k.toList) (joinWith [10] (rows.map lineOf)) =
      (rows.find? fun r => decide ((rfc4648 r.1.toList).map lower = (rfc4648 k.toList).map lower)).map fun r => decimal r.2 := by
  have hl : ∀ r : Key × Nat, (rfc4648 r.1.toList).length = (rfc4648 k.toList).length := fun r => by rw [key_length, key_length]
  induction rows with
  | nil => exact search_nil (key_no_sep k)
  | cons r rows ih =>
    have key := search_line (key_no_sep k) (key_nonempty k) (key_no_sep r.1) (hl r) r.2
    have e : joinWith [10] ((r :: rows).map lineOf) = rfc4648 r.1.toList ++ 9 :: (decimal r.2 ++ (if rows = [] then [] else 10 :: joinWith [10] (rows.map lineOf))) := by
      cases rows with
      | nil => simp [joinWith, lineOf]
      | cons s rows => simp [joinWith, lineOf]
    rw [e, key _ (by split <;> simp), List.find?_cons]
    have ed : (if rows = [] then ([] : CStr) else 10 :: joinWith [10] (rows.map lineOf)).drop 1 = joinWith [10] (rows.map lineOf) := by
      cases rows <;> simp [joinWith]
    rw [ed, ih]
    by_cases h : (rfc4648 r.1.toList).map lower = (rfc4648 k.toList).map lower
    · simp [h]
    · simp [h]

theorem strip_table (rows : List (Key × Nat)) :
    ((handshakeTable rows).reverse.dropWhile (· = 10)).reverse = joinWith [10] (rows.map lineOf) := by
  rcases List.eq_nil_or_concat rows with rfl | ⟨init, last, rfl⟩
  · rfl
  · rw [List.concat_eq_append]
    have e : handshakeTable (init ++ [last]) = joinWith [10] ((init ++ [last]).map lineOf) ++ [10] := by
      have hrow : ∀ r : Key × Nat, joinWith [9] [rfc4648 r.1.toList, decimal r.2] = lineOf r := by intro r; simp [joinWith, lineOf]
      have h1 : handshakeTable (init ++ [last]) = unlines ((init ++ [last]).map lineOf) := by
        simp only [handshakeTable, table, List.map_map]
        congr 1
        apply List.map_congr_left
        intro r _
        exact hrow r
      rw [h1]
      generalize hL : (init ++ [last]).map lineOf = L
      have hne : L ≠ [] := by rw [← hL]; simp
      clear hL h1
      induction L with
      | nil => exact absurd rfl hne
      | cons a L ih => cases L with
        | nil => simp [unlines, joinWith]
        | cons b L => rw [unlines_cons, ih (by simp)]; simp [joinWith]
    rw [e]
    obtain ⟨x, d, hx⟩ : ∃ x d, joinWith [10] ((init ++ [last]).map lineOf) = x ++ [d] ∧ d ≠ 10 := by
      have hd := (decimal_isDecimal last.2)
      rcases List.eq_nil_or_concat (decimal last.2) with h | ⟨y, d, h⟩
      · exact absurd h hd.1
      · rw [List.concat_eq_append] at h
        refine ⟨joinWith [10] (init.map lineOf) ++ (if init.map lineOf = [] then [] else [10]) ++ rfc4648 last.1.toList ++ 9 :: y, d, ?_, ?_⟩
        · rw [List.map_append, List.map_cons, List.map_nil, WgJson.join_snoc, lineOf, h]; simp
        · rintro rfl
          have := decimal_digit last.2 10 (by rw [h]; simp)
          revert this; decide
    rw [hx.1]
    simp [hx.2]

theorem handshakeOf_table (env : Env) (k : Key) (rows : List (Key × Nat)) :
    handshakeOf env (handshakeTable rows) (rfc4648 k.toList) =
      (rows.find? fun r => decide ((rfc4648 r.1.toList).map lower = (rfc4648 k.toList).map lower)).map fun r => decimal r.2 := by
  simp only [handshakeOf, strip_table, literal_key, if_true, search_rows]

/-! ### The time -/

theorem constant_decimal (n : Nat) (h : n < 2 ^ 62) : constant (decimal n) = some (n : Int) := by
  have hv : ∀ s : CStr, ∀ v, s.foldl (fun v c => v * 10 + (c.toNat - 48)) v = s.foldl (fun n c => 10 * n + (c.toNat - 48)) v := by
    intro s
    induction s with
    | nil => intro v; rfl
    | cons c s ih => intro v; rw [List.foldl_cons, List.foldl_cons, ih, Nat.mul_comm]
  have h3 : n = (decimal n).foldl (fun n c => 10 * n + (c.toNat - 48)) 0 := (decimal_isDecimal n).2.2
  by_cases h0 : n = 0
  · subst h0; rw [← showDec_eq]; decide
  · have hh : (decimal n).head? ≠ some c!"0" := by
      cases hx : decimal n with
      | nil => simp
      | cons c t => simpa using WgJson.toDigits_head n (by omega) c t hx
    have hd : ∀ c : UInt8, isDigit c = true → ¬ (c.toNat - 48 ≥ 10) := by apply forall_u8; decide +kernel
    simp only [constant, hh, if_false]
    rw [if_neg, hv, ← h3]
    · congr 1
      rw [BitVec.toInt_ofNat', Int.bmod_def]
      omega
    · simp only [List.any_eq_true, decide_eq_true_eq, not_exists, not_and]
      exact fun c hc => hd c (decimal_digit n c hc)

theorem stale_decimal (now n : Nat) (hn : now < 2 ^ 62) (h : n < 2 ^ 62) : stale now (decimal n) = decide ((now : Int) - n > 135) := by
  rw [stale, constant_decimal n h]
  simp only
  congr 1
  rw [BitVec.toInt_ofInt, Int.bmod_def]
  apply propext
  constructor <;> intro h <;> omega

/-! ### The loop over the lines -/

/-- The peers one after the other. -/
def runPeers (env : Env) (iface : CStr) : List (CStr × CStr) → List Ev → List Ev × Nat
  | [], tr => (tr, 0)
  | p :: ps, tr => match processPeer env iface ⟨true, p.1, p.2⟩ tr with
    | (tr, _, some s) => (tr, s)
    | (tr, _, none) => runPeers env iface ps tr

def entryOf (l : CStr) : CStr × CStr := (keyOf (strippedOf l), valueOf (strippedOf l))

def lastFrom (name : CStr) (es : List (CStr × CStr)) (init : CStr) : CStr :=
  (((es.filter fun e => decide (e.1.map lower = name)).getLast?).map (·.2)).getD init

theorem lastFrom_cons (name : CStr) (e : CStr × CStr) (es : List (CStr × CStr)) (init : CStr) :
    lastFrom name (e :: es) init = lastFrom name es (if e.1.map lower = name then e.2 else init) := by
  unfold lastFrom
  by_cases h : e.1.map lower = name
  · simp only [List.filter_cons, h, decide_true, if_true]
    generalize es.filter _ = l
    rcases List.eq_nil_or_concat l with rfl | ⟨l', x, rfl⟩
    · rfl
    · rw [List.concat_eq_append, ← List.cons_append, List.getLast?_concat, List.getLast?_concat]; rfl
  · simp [h]

theorem strcase_iff (a b : CStr) (hb : b.map lower = b') : strcaseeq a b = true ↔ a.map lower = b' := by
  simp [strcaseeq, tolower_eq, hb]

def pending (st : St) (es : List (CStr × CStr)) : List (CStr × CStr) :=
  let k := lastFrom b!"publickey" (sectionBody es) st.key
  let ep := lastFrom b!"endpoint" (sectionBody es) st.endpoint
  if st.peer = true ∧ k ≠ [] ∧ ep ≠ [] then [(k, ep)] else []

theorem pending_nil (st : St) : pending st [] = if st.peer = true ∧ st.key ≠ [] ∧ st.endpoint ≠ [] then [(st.key, st.endpoint)] else [] := rfl

theorem sectionBody_head (e : CStr × CStr) (es : List (CStr × CStr)) (h : e.1.head? = some c!"[") : sectionBody (e :: es) = [] := by
  simp [sectionBody, h]

theorem sectionBody_cons (e : CStr × CStr) (es : List (CStr × CStr)) (h : e.1.head? ≠ some c!"[") : sectionBody (e :: es) = e :: sectionBody es := by
  simp [sectionBody, h]

theorem process_none (env : Env) (iface : CStr) (st : St) (tr : List Ev) (h : ¬ (st.peer = true ∧ st.key ≠ [] ∧ st.endpoint ≠ [])) :
    processPeer env iface st tr = (tr, st, none) := by
  rw [processPeer, if_pos]
  by_cases h1 : st.peer = true
  · by_cases h2 : st.key = []
    · exact .inr (.inl h2)
    · exact .inr (.inr (by by_contra h3; exact h ⟨h1, h2, h3⟩))
  · exact .inl (by simpa using h1)

theorem head_of_lower {k : CStr} (h : k.map lower = b!"[peer]") : k.head? = some c!"[" := by
  cases k with
  | nil => simp at h
  | cons c k =>
    simp only [List.map_cons, List.cons.injEq] at h
    have : ∀ c : UInt8, lower c = 91 → c = 91 := by apply forall_u8; decide +kernel
    simp [this c h.1]

theorem not_head {k w : CStr} {x : UInt8} (h : k.map lower = x :: w) (hx : x ≠ 91) : k.head? ≠ some c!"[" := by
  cases k with
  | nil => simp
  | cons c k =>
    simp only [List.map_cons, List.cons.injEq] at h
    simp only [List.head?_cons, ne_eq, Option.some.injEq]
    rintro rfl
    exact hx (h.1.symm.trans (by decide))

theorem loop_eq (env : Env) (iface : CStr) (lines : List CStr) (st : St) (tr : List Ev) :
    loop env iface st tr lines = runPeers env iface (pending st (lines.map entryOf) ++ peersIn (lines.map entryOf)) tr := by
  induction lines generalizing st tr with
  | nil =>
    rw [loop, List.map_nil, pending_nil, peersIn, List.append_nil]
    by_cases h : st.peer = true ∧ st.key ≠ [] ∧ st.endpoint ≠ []
    · rw [if_pos h, runPeers]
      have e : (⟨true, st.key, st.endpoint⟩ : St) = st := by cases st; simp_all
      rw [e]
      rcases processPeer env iface st tr with ⟨tr', st', _ | s⟩ <;> rfl
    · rw [if_neg h, process_none _ _ _ _ h]; rfl
  | cons l lines ih =>
    have e1 : (entryOf l).1 = keyOf (strippedOf l) := rfl
    have e2 : (entryOf l).2 = valueOf (strippedOf l) := rfl
    rw [loop, List.map_cons]
    simp only [← e1, ← e2]
    generalize entryOf l = e at *
    generalize lines.map entryOf = es at *
    have cP := strcase_iff e.1 b!"[Peer]" (b' := b!"[peer]") (by decide)
    have cK := strcase_iff e.1 b!"PublicKey" (b' := b!"publickey") (by decide)
    have cE := strcase_iff e.1 b!"Endpoint" (b' := b!"endpoint") (by decide)
    by_cases hh : e.1.head? = some c!"["
    · rw [if_pos hh]
      have nK : strcaseeq e.1 b!"PublicKey" = false := Bool.eq_false_iff.2 fun h => not_head (cK.1 h) (by decide) hh
      have nE : strcaseeq e.1 b!"Endpoint" = false := Bool.eq_false_iff.2 fun h => not_head (cE.1 h) (by decide) hh
      have hp : pending st (e :: es) = if st.peer = true ∧ st.key ≠ [] ∧ st.endpoint ≠ [] then [(st.key, st.endpoint)] else [] := by
        rw [pending, sectionBody_head e es hh]; rfl
      have hnext : ∀ tr, (let st : St := if strcaseeq e.1 b!"[Peer]" = true then { ({} : St) with peer := true } else {}
          let st := if st.peer = true then
            if strcaseeq e.1 b!"PublicKey" = true then { st with key := e.2 }
            else if strcaseeq e.1 b!"Endpoint" = true then { st with endpoint := e.2 } else st
          else st
          loop env iface st tr lines) = runPeers env iface (peersIn (e :: es)) tr := by
        intro tr
        simp only [nK, nE, Bool.false_eq_true, if_false, ite_self, ih]
        congr 1
        rw [peersIn]
        congr 1
        by_cases hpeer : e.1.map lower = b!"[peer]"
        · rw [if_pos (cP.2 hpeer)]
          simp only [pending, hpeer, true_and]
          rfl
        · rw [if_neg (fun h => hpeer (cP.1 h)), if_neg (fun h => hpeer h.1)]
          simp [pending]
      rw [hp]
      by_cases h : st.peer = true ∧ st.key ≠ [] ∧ st.endpoint ≠ []
      · rw [if_pos h, List.singleton_append, runPeers]
        have e : (⟨true, st.key, st.endpoint⟩ : St) = st := by cases st; simp_all
        rw [e]
        rcases processPeer env iface st tr with ⟨tr', st', _ | s⟩
        · exact hnext tr'
        · rfl
      · rw [if_neg h, process_none _ _ _ _ h]
        exact hnext tr
    · rw [if_neg hh]
      have nP : strcaseeq e.1 b!"[Peer]" = false := Bool.eq_false_iff.2 fun h => hh (head_of_lower (cP.1 h))
      have np : peersIn (e :: es) = peersIn es := by
        rw [peersIn, if_neg (fun h => hh (head_of_lower h.1)), List.nil_append]
      simp only [nP, Bool.false_eq_true, if_false, ih, np]
      congr 2
      simp only [pending, sectionBody_cons e es hh, lastFrom_cons]
      by_cases hp : st.peer = true
      · by_cases hk : e.1.map lower = b!"publickey"
        · have hne : e.1.map lower ≠ b!"endpoint" := by rw [hk]; decide
          simp only [hp, cK.2 hk, if_true, hk]
          rw [if_neg (show b!"publickey" ≠ b!"endpoint" by decide)]
        · by_cases he : e.1.map lower = b!"endpoint"
          · have n1 : strcaseeq e.1 b!"PublicKey" = false := Bool.eq_false_iff.2 fun h => hk (cK.1 h)
            simp only [hp, if_true, n1, Bool.false_eq_true, if_false, cE.2 he, he]
            rw [if_neg (show b!"endpoint" ≠ b!"publickey" by decide)]
          · have n1 : strcaseeq e.1 b!"PublicKey" = false := Bool.eq_false_iff.2 fun h => hk (cK.1 h)
            have n2 : strcaseeq e.1 b!"Endpoint" = false := Bool.eq_false_iff.2 fun h => he (cE.1 h)
            simp only [hp, if_true, n1, n2, Bool.false_eq_true, if_false, hk, he]
      · have hp' : st.peer = false := by simpa using hp
        simp [hp']

/-! ### The peers -/

theorem find_none {k : Key} {rows : List (Key × Nat)}
    (h : rows.find? (fun r => decide ((rfc4648 r.1.toList).map lower = (rfc4648 k.toList).map lower)) = none) : ∀ x ∈ rows, x.1 ≠ k := by
  intro x hx e
  rw [List.find?_eq_none] at h
  exact h x hx (by simp [e])

theorem runPeers_updates (env : Env) (iface : CStr) (hu : Usual env iface) (ps : List (CStr × CStr))
    (hk : ∀ p ∈ ps, ∃ k : Key, p.1 = rfc4648 k.toList ∧ p.2 ≠ [] ∧ CaseUnique env iface k) (tr : List Ev) :
    ∃ t s, runPeers env iface ps tr = (tr ++ t, s) ∧ Updates iface ps t s := by
  induction ps generalizing tr with
  | nil => exact ⟨[], 0, by simp [runPeers], .done⟩
  | cons p ps ih =>
    obtain ⟨pk, ep⟩ := p
    obtain ⟨k, rfl, hep, hcu⟩ := hk (pk, ep) (by simp)
    simp only at hep
    have ih := fun tr => ih (fun p hp => hk p (by simp [hp])) tr
    obtain ⟨rows, hr, hlt, -⟩ := hu.listing tr
    have hne := key_nonempty k
    rw [runPeers, processPeer, if_neg (by simp [hne, hep])]
    simp only [hr, handshakeOf_table]
    have hcu := hcu tr rows hr
    cases hf : rows.find? (fun r => decide ((rfc4648 r.1.toList).map lower = (rfc4648 k.toList).map lower)) with
    | none =>
      simp only [Option.map_none]
      obtain ⟨t, s, e, hU⟩ := ih (tr ++ [(Call.handshakes iface, env.reply tr (.handshakes iface))])
      exact ⟨_, s, by rw [e, List.append_assoc]; rfl, .unknown hr (find_none hf) hU⟩
    | some r =>
      have hm := List.mem_of_find?_eq_some hf
      have hkk : r.1 = k := hcu r hm (by simpa using List.find?_some hf)
      have hm' : (k, r.2) ∈ rows := by rw [← hkk]; exact hm
      simp only [Option.map_some]
      have hc := hu.clock (tr ++ [(Call.handshakes iface, env.reply tr (.handshakes iface))])
      simp only [stale_decimal _ _ hc (hlt r hm)]
      by_cases h135 : ((env.reply (tr ++ [(Call.handshakes iface, env.reply tr (.handshakes iface))]) .clock).time : Int) - r.2 > 135
      · rw [if_neg (by simpa using h135)]
        split
        · rename_i hs
          split at hs
          · rename_i hst
            simp only [Prod.mk.injEq, Option.some.injEq] at hs
            obtain ⟨rfl, -, rfl⟩ := hs
            exact ⟨_, _, by simp only [List.append_assoc]; rfl, .failed hr hm' h135 hst⟩
          · simp at hs
        · rename_i hs
          split at hs
          · simp at hs
          · rename_i hst
            simp only [Prod.mk.injEq, and_true] at hs
            obtain ⟨rfl, -⟩ := hs
            obtain ⟨t, s, e, hU⟩ := ih _
            refine ⟨_, s, by rw [e]; simp only [List.append_assoc]; rfl, .old hr hm' h135 (by simpa using hst) hU⟩
      · rw [if_pos (by simpa using h135)]
        simp only
        obtain ⟨t, s, e, hU⟩ := ih (tr ++ [(Call.handshakes iface, env.reply tr (.handshakes iface))] ++
          [(Call.clock, env.reply (tr ++ [(Call.handshakes iface, env.reply tr (.handshakes iface))]) .clock)])
        exact ⟨_, s, by rw [e]; simp only [List.append_assoc]; rfl, .recent hr hm' (by omega) hU⟩

end WG.Reresolve
