import Verif.Proof.QuickTrap
/-! The text of a saved configuration. -/
namespace WG.Quick
open WG.Spec WG.Spec.Quick

theorem nsByte_iff : ∀ c : UInt8, (isNameByte c || c == c!":" || c == c!"%") = true ↔ (isAlpha c = true ∨ isDigit c = true ∨ c ∈ b!"_=+:%.-") := by
  apply forall_u8; decide +kernel

theorem nameserverOf_iff (line a : CStr) : nameserverOf line = some a ↔ NameserverLine line a := by
  unfold nameserverOf NameserverLine
  dsimp only
  rw [Option.ite_none_right_eq_some]
  constructor
  · rintro ⟨⟨h1, h2, h3⟩, h⟩
    simp only [Option.some.injEq] at h
    subst h
    obtain ⟨t, rfl⟩ := List.isPrefixOf_iff_prefix.1 h1
    have e : (b!"nameserver " ++ t).drop 11 = t := rfl
    rw [e] at h2 h3 ⊢
    exact ⟨rfl, h2, fun c hc => (nsByte_iff c).1 (List.all_eq_true.1 h3 c hc)⟩
  · rintro ⟨rfl, h2, h3⟩
    have e : (b!"nameserver " ++ a).drop 11 = a := rfl
    rw [e]
    exact ⟨⟨List.isPrefixOf_iff_prefix.2 (List.prefix_append _ _), h2, List.all_eq_true.2 fun c hc => (nsByte_iff c).2 (h3 c hc)⟩, rfl⟩

theorem dnsServers_sound (d : List UInt8) : DnsServers d ((readLoopLines d).filterMap nameserverOf) :=
  ⟨_, (endedLines_iff _ _).2 rfl, collected_filterMap nameserverOf_iff _⟩

theorem takeWhile_of {p : UInt8 → Bool} {a b : CStr} (h1 : ∀ x ∈ a, p x = true) (h2 : ∀ x, b.head? = some x → p x = false) : (a ++ b).takeWhile p = a := by
  rw [List.takeWhile_append_of_pos h1]
  cases b with
  | nil => simp
  | cons x b => rw [List.takeWhile_cons_of_neg (by rw [h2 x rfl]; simp), List.append_nil]

theorem takeWhile_spec (p : UInt8 → Bool) (s : CStr) :
    ∃ a b, s = a ++ b ∧ a = s.takeWhile p ∧ (∀ x ∈ a, p x = true) ∧ ∀ x, b.head? = some x → p x = false := by
  refine ⟨s.takeWhile p, s.dropWhile p, (List.takeWhile_append_dropWhile ..).symm, rfl, fun x hx => List.mem_takeWhile_imp hx, ?_⟩
  intro x hx
  exact dropWhile_head_false p s x hx

theorem upper_space : ∀ c : UInt8, (65 ≤ c && c ≤ 90) = true → decide (c = 32) = false := by apply forall_u8; decide +kernel

theorem briefLine_unique {i o r r' : CStr} (h1 : BriefLine i o r) (h2 : BriefLine i o r') : r = r' := by
  have key : ∀ r, BriefLine i o r → r = ((o.drop i.length).dropWhile (· = 32)).dropWhile (fun c => 65 ≤ c && c ≤ 90) := by
    rintro r ⟨sp, st, rfl, _, h2, h3, h4, h5⟩
    have e1 : (i ++ sp ++ st ++ r).drop i.length = sp ++ (st ++ r) := by simp
    rw [e1, List.dropWhile_append_of_pos (by simpa using h2)]
    have e2 : (st ++ r).dropWhile (· = 32) = st ++ r := by
      cases st with
      | nil => exact absurd rfl h3
      | cons x st =>
        have := h4 x (List.mem_cons_self ..)
        rw [List.cons_append, List.dropWhile_cons_of_neg]
        have := upper_space x (by simpa using this)
        rw [this]; simp
    rw [e2, List.dropWhile_append_of_pos (fun x hx => by simpa using h4 x hx)]
    cases r with
    | nil => rfl
    | cons x r =>
      simp only [List.head?_cons, Option.some.injEq] at h5
      subst h5
      rfl
  rw [key r h1, key r' h2]

theorem briefAddrs_sound (c : Cfg) (out : List UInt8) : BriefAddrs c.iface out (wordsAux [] (briefAddrs c (chomp out))) := by
  intro hp
  rw [← chomp_eq]
  generalize chomp out = o
  unfold briefAddrs
  rw [if_neg hp]
  by_cases h1 : c.iface.isPrefixOf o = true
  · rw [if_pos h1]
    dsimp only
    obtain ⟨t, rfl⟩ := List.isPrefixOf_iff_prefix.1 h1
    have e1 : (c.iface ++ t).drop c.iface.length = t := by simp
    rw [e1]
    obtain ⟨sp, t1, rfl, hsp, p1, p2⟩ := takeWhile_spec (· = 32) t
    rw [← hsp]
    have e2 : (sp ++ t1).drop sp.length = t1 := by simp
    rw [e2]
    obtain ⟨st, r, rfl, hst, p3, p4⟩ := takeWhile_spec (fun c => 65 ≤ c && c ≤ 90) t1
    rw [← hst]
    have e3 : (st ++ r).drop st.length = r := by simp
    rw [e3]
    by_cases h2 : 2 ≤ sp.length ∧ st ≠ [] ∧ r.head? = some 32
    · rw [if_pos h2]
      refine .inl ⟨r, ⟨sp, st, by simp, h2.1, by simpa using p1, h2.2.1, fun x hx => by simpa using p3 x hx, h2.2.2⟩, blankWords r⟩
    · rw [if_neg h2]
      refine .inr ⟨?_, rfl⟩
      rintro rest ⟨sp', st', h, a1, a2, a3, a4, a5⟩
      simp only [List.append_assoc, List.append_cancel_left_eq] at h
      have hst' : ∀ x, (st' ++ rest).head? = some x → decide (x = 32) = false := by
        intro x hx
        cases st' with
        | nil => exact absurd rfl a3
        | cons y st' =>
          simp only [List.cons_append, List.head?_cons, Option.some.injEq] at hx
          subst hx
          exact upper_space y (by simpa using a4 y (List.mem_cons_self ..))
      have b1 : sp = sp' := by
        rw [hsp, h, takeWhile_of (by simpa using a2) hst']
      subst b1
      simp only [List.append_cancel_left_eq] at h
      have hr : ∀ x, rest.head? = some x → (65 ≤ x && x ≤ 90) = false := by
        intro x hx
        rw [a5] at hx
        simp only [Option.some.injEq] at hx
        subst hx; rfl
      have b2 : st = st' := by
        rw [hst, h, takeWhile_of (fun x hx => by simpa using a4 x hx) hr]
      subst b2
      simp only [List.append_cancel_left_eq] at h
      subst h
      exact h2 ⟨a1, a3, a5⟩
  · rw [if_neg h1]
    refine .inr ⟨?_, rfl⟩
    rintro rest ⟨sp, st, rfl, _⟩
    exact h1 (List.isPrefixOf_iff_prefix.2 ⟨sp ++ st ++ rest, by simp⟩)

theorem ownText_eq (o : Opts) (as ns : List CStr) (m : Option CStr) : ownText o as ns m = ownSection (savedSettings o as ns m) := by
  have hf : ∀ (k : CStr) (vs : List CStr), (vs.map (k, ·)).flatMap (fun p : CStr × CStr => p.1 ++ b!" = " ++ p.2 ++ b!"\n") = vs.flatMap (confLine k) := by
    intro k vs
    rw [List.flatMap_map]; rfl
  unfold ownText ownSection savedSettings
  simp only [List.flatMap_append, hf]
  simp only [List.append_assoc]
  congr 3
  congr 1
  · cases m <;> simp
  congr 1
  · split <;> simp [confLine]
  congr 1
  split <;> rfl

theorem patsub_amp (m s : CStr) : AmpText m s (patsubText m s) := by
  induction s using patsubText.induct with
  | case1 => exact .nil
  | case2 =>
    unfold patsubText
    rw [if_pos rfl]
    have := AmpText.amp (matched := m) .nil
    rwa [List.append_nil] at this
  | case3 d h =>
    unfold patsubText
    rw [if_neg h]
    exact .other h (by simp) .nil
  | case4 d t ih =>
    unfold patsubText
    rw [if_pos rfl]; exact .amp ih
  | case5 c d t h1 h2 ih =>
    unfold patsubText
    rw [if_neg h1, if_pos h2]
    obtain ⟨rfl, h2⟩ := h2
    exact .esc h2 ih
  | case6 c d t h1 h2 ih =>
    unfold patsubText
    rw [if_neg h1, if_neg h2]
    exact .other h1 (by simpa using h2) ih

theorem replaceFirst_spec (pat new s : CStr) (hp : pat ≠ []) : Replaced pat new s (replaceFirst pat new s) := by
  induction s with
  | nil =>
    refine .inr ⟨?_, rfl⟩
    rintro ⟨a, b, h⟩
    have := congrArg List.length h
    simp only [List.length_nil, List.length_append] at this
    exact hp (List.length_eq_zero_iff.1 (by omega))
  | cons c t ih =>
    unfold replaceFirst
    by_cases h : pat.isPrefixOf (c :: t) = true
    · rw [if_pos h]
      obtain ⟨r, hr⟩ := List.isPrefixOf_iff_prefix.1 h
      refine .inl ⟨[], r, by rw [← hr]; rfl, ?_, fun a' b' _ => Nat.zero_le _⟩
      rw [← hr]; simp
    · rw [if_neg h]
      have hno : ∀ a b, c :: t = a ++ pat ++ b → ∃ a', a = c :: a' := by
        intro a b he
        cases a with
        | nil => exact absurd (List.isPrefixOf_iff_prefix.2 ⟨b, he.symm⟩) h
        | cons x a => simp only [List.cons_append, List.cons.injEq] at he; exact ⟨a, by rw [he.1]⟩
      rcases ih with ⟨a, b, h1, h2, h3⟩ | ⟨h1, h2⟩
      · refine .inl ⟨c :: a, b, by rw [h1]; rfl, by rw [h2]; rfl, ?_⟩
        intro a' b' he
        obtain ⟨a'', rfl⟩ := hno a' b' he
        simp only [List.cons_append, List.cons.injEq, true_and] at he
        have := h3 a'' b' he
        simpa using this
      · refine .inr ⟨?_, by rw [h2]⟩
        rintro ⟨a, b, he⟩
        obtain ⟨a', rfl⟩ := hno a b he
        simp only [List.cons_append, List.cons.injEq, true_and] at he
        exact h1 ⟨a', b, he⟩

theorem mtuIn_iff' (s d : CStr) : mtuIn s = some d ↔ FirstArg b!"mtu " isDigit s d := by
  unfold mtuIn
  rw [wordArg_iff, isDig_eq]

/-- Everything together. -/
theorem newConfig_of {c : Cfg} {h : List Ev} {a s : Reply} {d : List UInt8} {m : Option CStr}
    (h1 : (.query [b!"ip", b!"-all", b!"-brief", b!"address", b!"show", b!"dev", c.iface], a) ∈ h) (h2 : DnsShown c d h) (h3 : MtuShown c m h)
    (h4 : (.query [b!"wg", b!"showconf", c.iface], s) ∈ h) (h5 : s.status = 0) :
    NewConfig c h (savedText c (chomp s.out) (ownText c.opts (wordsAux [] (briefAddrs c (chomp a.out))) ((readLoopLines d).filterMap nameserverOf) m)) := by
  refine ⟨a, d, m, s, _, _, _, _, h1, briefAddrs_sound c a.out, h2, dnsServers_sound d, h3, h4, h5, ?_, replaceFirst_spec _ _ _ (by simp), rfl⟩
  rw [ownText_eq]
  split
  · exact patsub_amp _ _
  · rfl

end WG.Quick
