import Verif.Model.DemoClient
import Verif.Proof.QuickReload
import Verif.Proof.Showconf
/-! Proofs for C103. -/
namespace WG.DemoClient
open Spec Spec.Quick Quick

/-- A setting whose value is anything. -/
def anyLine (name z : CStr) : CStr := name ++ b!" =" ++ z

def PlainName (n : CStr) : Prop := n ≠ [] ∧ ∀ c ∈ n, isSpace c = false ∧ c ≠ c!"#" ∧ c ≠ 0 ∧ c ≠ c!"=" ∧ c ≠ c!"["

theorem rstrip (p : UInt8 → Bool) (z : CStr) : ∃ w r, z = w ++ r ∧ (∀ c ∈ r, p c = true) ∧ ∀ c, w.getLast? = some c → p c = false := by
  induction z using List.reverseRecOn with
  | nil => exact ⟨[], [], rfl, by simp, by simp⟩
  | append_singleton z x ih =>
    by_cases hx : p x = true
    · obtain ⟨w, r, h1, h2, h3⟩ := ih
      refine ⟨w, r ++ [x], by rw [h1]; simp, ?_, h3⟩
      intro c hc
      rw [List.mem_append, List.mem_singleton] at hc
      rcases hc with hc | rfl
      · exact h2 c hc
      · exact hx
    · refine ⟨z ++ [x], [], by simp, by simp, ?_⟩
      intro c hc
      simp only [List.getLast?_append, List.getLast?_singleton, Option.some_or, Option.some.injEq] at hc
      rw [← hc]
      simpa using hx

theorem readLine_any {name z : CStr} (hn : PlainName name) (hz : (0 : UInt8) ∉ z) :
    ∃ w r, z = w ++ r ∧ (∀ c ∈ r, isIfs c = true) ∧ readLine (anyLine name z) = anyLine name w := by
  obtain ⟨w, r, h1, h2, h3⟩ := rstrip isIfs z
  refine ⟨w, r, h1, h2, ?_⟩
  have hf : (anyLine name z).filter (· ≠ 0) = anyLine name z := by
    rw [List.filter_eq_self]
    intro c hc
    simp only [decide_eq_true_eq]
    rintro rfl
    simp only [anyLine, List.mem_append] at hc
    rcases hc with (hc | hc) | hc
    · exact (hn.2 _ hc).2.2.1 rfl
    · revert hc; decide
    · exact hz hc
  unfold readLine
  rw [hf, h1, isIfs_eq]
  symm
  apply trim_of
  refine ⟨[], r, by simp [anyLine], by simp, by rw [isIfs_eq] at h2; exact h2, ?_, ?_⟩
  · intro c hc
    obtain ⟨hne, hb⟩ := hn
    cases name with
    | nil => exact absurd rfl hne
    | cons x k =>
      simp only [anyLine, List.cons_append, List.head?_cons, Option.some.injEq] at hc
      subst hc
      exact spaceTab_isSpace (hb _ (List.mem_cons_self ..)).1
  · intro c hc
    rw [isIfs_eq] at h3
    by_cases hw : w = []
    · subst hw
      simp only [anyLine, List.append_nil] at hc
      rw [List.getLast?_append] at hc
      simp at hc
      subst hc; decide
    · apply h3
      rw [← hc]
      unfold anyLine
      rw [List.getLast?_append_of_ne_nil _ hw]

theorem anyLine_key {name w : CStr} (hn : PlainName name) : HasKey (anyLine name w) name := by
  refine ⟨name ++ b!" =" ++ w.takeWhile (· ≠ c!"#"), name ++ b!" ", ⟨?_, ?_⟩, ⟨?_, .inr ⟨w.takeWhile (· ≠ c!"#"), by simp⟩⟩, [], b!" ", by simp, by simp, by decide, ?_, ?_⟩
  · simp only [List.mem_append, not_or]
    refine ⟨⟨fun h => (hn.2 _ h).2.1 rfl, by decide⟩, ?_⟩
    intro h
    exact ((before_iff c!"#" w _).2 rfl).1 h
  · rcases ((before_iff c!"#" w _).2 rfl).2 with h | ⟨r, h⟩
    · left; rw [← h]; rfl
    · exact .inr ⟨r, by unfold anyLine; rw [List.append_assoc _ _ (c!"#" :: r), ← h]⟩
  · simp only [List.mem_append, not_or]
    exact ⟨fun h => (hn.2 _ h).2.2.2.1 rfl, by decide⟩
  · intro c hc; exact (hn.2 c (List.mem_of_mem_head? hc)).1
  · intro c hc; exact (hn.2 c (List.mem_of_getLast? hc)).1

theorem not_own {l k : CStr} (hk : HasKey l k) (h : k.map lower ∉ ownKeys) (pre : List CStr) : ∀ k v, ¬ OwnLine pre l k v := by
  rintro k' v ⟨-, h1, ⟨k'', h2, h3⟩, -⟩
  rw [hasKey_iff] at hk h2
  rw [← hk] at h2
  subst h2
  unfold EqNoCase at h3
  rw [h3] at h
  exact h h1

theorem own_iface {pre S : List CStr} {l k v k' : CStr} (e : pre ++ [l] = b!"[Interface]" :: S) (hS : ∀ l ∈ S, ∀ k, HasKey l k → k.head? ≠ some c!"[") (hk : HasKey l k')
    (hkk : k'.map lower = k) (ho : k ∈ ownKeys) (hv : HasValue l v) : OwnLine pre l k v := by
  refine ⟨?_, ho, ⟨k', hk, hkk⟩, hv⟩
  rw [e]
  have := (inInterface_insert S [] hS).2 ((inInterface_iff _).1 (by decide +kernel))
  rwa [List.append_nil] at this

theorem key_head {l name : CStr} (hn : PlainName name) (hk : HasKey l name) : ∀ k, HasKey l k → k.head? ≠ some c!"[" := by
  intro k h
  rw [hasKey_iff] at hk h
  rw [h, ← hk]
  exact fun e => (hn.2 _ (List.mem_of_mem_head? e)).2.2.2.2 rfl

theorem plain_names : PlainName b!"PrivateKey" ∧ PlainName b!"Address" ∧ PlainName b!"DNS" ∧ PlainName b!"PublicKey" ∧ PlainName b!"Endpoint" ∧ PlainName b!"AllowedIPs" := by
  unfold PlainName; decide +kernel

/-- The lines of the file. -/
def segs (privatekey pub port ip : CStr) : List CStr :=
  [b!"[Interface]", anyLine b!"PrivateKey" (b!" " ++ privatekey), anyLine b!"Address" (b!" " ++ ip ++ b!"/24"), anyLine b!"DNS" b!" 8.8.8.8, 8.8.4.4, 1.1.1.1, 1.0.0.1", [],
   b!"[Peer]", anyLine b!"PublicKey" (b!" " ++ pub), anyLine b!"Endpoint" (b!" demo.wireguard.com:" ++ port), anyLine b!"AllowedIPs" b!" 0.0.0.0/0"]

theorem confText_segs (privatekey pub port ip : CStr) : confText privatekey pub port ip = (segs privatekey pub port ip).flatMap (· ++ [10]) ++ [] := by
  simp [confText, segs, anyLine]

/-- A text without line feeds and NULs. -/
def OneLine (s : CStr) : Prop := (10 : UInt8) ∉ s ∧ (0 : UInt8) ∉ s

theorem bodyLines_conf {privatekey pub port ip : CStr} (h1 : OneLine privatekey) (h2 : OneLine pub) (h3 : OneLine port) (h4 : OneLine ip) :
    bodyLines (confText privatekey pub port ip) = (segs privatekey pub port ip).map readLine := by
  rw [confText_segs, bodyLines_of _ _ ?_ (by simp)]
  · rw [if_pos (by decide), List.append_nil]
  · intro s hs
    simp only [segs, List.mem_cons, List.not_mem_nil, or_false] at hs
    rcases hs with rfl | rfl | rfl | rfl | rfl | rfl | rfl | rfl | rfl <;>
      simp [anyLine, h1.1, h2.1, h3.1, h4.1]

/-- What the lines say, whatever the four texts are. -/
theorem conf_says {privatekey pub port ip : CStr} (h1 : OneLine privatekey) (h2 : OneLine pub) (h3 : OneLine port) (h4 : OneLine ip) :
    ∃ lpriv laddr lpub lend, readLine (anyLine b!"PrivateKey" (b!" " ++ privatekey)) = lpriv ∧ readLine (anyLine b!"Address" (b!" " ++ ip ++ b!"/24")) = laddr ∧
      readLine (anyLine b!"PublicKey" (b!" " ++ pub)) = lpub ∧ readLine (anyLine b!"Endpoint" (b!" demo.wireguard.com:" ++ port)) = lend ∧
    Says (bodyLines (confText privatekey pub port ip))
      [b!"[Interface]", lpriv, [], b!"[Peer]", lpub, lend, b!"AllowedIPs = 0.0.0.0/0"]
      [(b!"address", valueOf (strippedOf laddr)), (b!"dns", b!"8.8.8.8, 8.8.4.4, 1.1.1.1, 1.0.0.1")] := by
  obtain ⟨n1, n2, n3, n4, n5, n6⟩ := plain_names
  have z : ∀ (a b : CStr), (0 : UInt8) ∉ a → OneLine b → (0 : UInt8) ∉ a ++ b := fun a b ha hb => by
    rw [List.mem_append, not_or]; exact ⟨ha, hb.2⟩
  obtain ⟨w1, r1, -, -, e1⟩ := readLine_any n1 (z (b!" ") privatekey (by decide) h1)
  obtain ⟨w2, r2, -, -, e2⟩ := readLine_any (z := b!" " ++ ip ++ b!"/24") n2 (by
    rw [List.mem_append, not_or]; exact ⟨z _ _ (by decide) h4, by decide⟩)
  obtain ⟨w4, r4, -, -, e4⟩ := readLine_any n4 (z (b!" ") pub (by decide) h2)
  obtain ⟨w5, r5, -, -, e5⟩ := readLine_any n5 (z (b!" demo.wireguard.com:") port (by decide) h3)
  refine ⟨_, _, _, _, e1, e2, e4, e5, ?_⟩
  rw [bodyLines_conf h1 h2 h3 h4]
  have e3 : readLine (anyLine b!"DNS" b!" 8.8.8.8, 8.8.4.4, 1.1.1.1, 1.0.0.1") = anyLine b!"DNS" b!" 8.8.8.8, 8.8.4.4, 1.1.1.1, 1.0.0.1" := by decide +kernel
  have e6 : readLine (anyLine b!"AllowedIPs" b!" 0.0.0.0/0") = b!"AllowedIPs = 0.0.0.0/0" := by decide +kernel
  have e0 : readLine b!"[Interface]" = b!"[Interface]" ∧ readLine [] = [] ∧ readLine b!"[Peer]" = b!"[Peer]" := by decide +kernel
  simp only [segs, List.map_cons, List.map_nil, e0, e1, e2, e3, e4, e5, e6]
  have k1 := anyLine_key (w := w1) n1
  have k2 := anyLine_key (w := w2) n2
  have k3 := anyLine_key (w := b!" 8.8.8.8, 8.8.4.4, 1.1.1.1, 1.0.0.1") n3
  have k4 := anyLine_key (w := w4) n4
  have k5 := anyLine_key (w := w5) n5
  have k6 : HasKey b!"AllowedIPs = 0.0.0.0/0" b!"AllowedIPs" := anyLine_key (w := b!" 0.0.0.0/0") n6
  have ki : HasKey b!"[Interface]" b!"[Interface]" := (hasKey_iff _ _).2 (by decide +kernel)
  have kp : HasKey b!"[Peer]" b!"[Peer]" := (hasKey_iff _ _).2 (by decide +kernel)
  have ke : HasKey [] [] := (hasKey_iff _ _).2 (by decide +kernel)
  have s1 := Says.keep Says.nil (not_own ki (by decide +kernel) [])
  have s2 := Says.keep s1 (not_own k1 (by decide +kernel) _)
  have s3 := Says.own s2 (own_iface (S := [anyLine b!"PrivateKey" w1, anyLine b!"Address" w2]) (by simp) (by
    intro l hl
    simp only [List.mem_cons, List.not_mem_nil, or_false] at hl
    rcases hl with rfl | rfl
    · exact key_head n1 k1
    · exact key_head n2 k2) k2 (k := b!"address") (by decide +kernel) (by decide) ((hasValue_iff _ _).2 rfl))
  have s4 := Says.own s3 (own_iface (S := [anyLine b!"PrivateKey" w1, anyLine b!"Address" w2, anyLine b!"DNS" b!" 8.8.8.8, 8.8.4.4, 1.1.1.1, 1.0.0.1"]) (by simp) (by
    intro l hl
    simp only [List.mem_cons, List.not_mem_nil, or_false] at hl
    rcases hl with rfl | rfl | rfl
    · exact key_head n1 k1
    · exact key_head n2 k2
    · exact key_head n3 k3) k3 (k := b!"dns") (v := b!"8.8.8.8, 8.8.4.4, 1.1.1.1, 1.0.0.1") (by decide +kernel) (by decide) ((hasValue_iff _ _).2 (by decide +kernel)))
  have s5 := Says.keep s4 (not_own ke (by decide +kernel) _)
  have s6 := Says.keep s5 (not_own kp (by decide +kernel) _)
  have s7 := Says.keep s6 (not_own k4 (by decide +kernel) _)
  have s8 := Says.keep s7 (not_own k5 (by decide +kernel) _)
  have s9 := Says.keep s8 (not_own k6 (by decide +kernel) _)
  simpa using s9

/-! ### What `wg` reads -/

theorem cleaned_any (name x : CStr) (hn : PlainName name) : cleaned (readLine (anyLine name x)) = name ++ b!"=" ++ cleaned (x.filter (· ≠ 0)) := by
  unfold readLine
  rw [cleaned_trim]
  have hnf : ∀ a : CStr, (∀ c ∈ a, c ≠ 0) → a.filter (· ≠ 0) = a := fun a ha => List.filter_eq_self.2 fun c hc => by simpa using ha c hc
  have e : (anyLine name x).filter (· ≠ 0) = name ++ b!" =" ++ x.filter (· ≠ 0) := by
    unfold anyLine
    rw [List.filter_append, List.filter_append, hnf name fun c hc => (hn.2 c hc).2.2.1, hnf _ (by decide)]
  rw [e]
  unfold cleaned
  rw [List.append_assoc, List.takeWhile_append_of_pos (fun c hc => by simpa using (hn.2 c hc).2.1), List.takeWhile_append_of_pos (by decide), List.filter_append, List.filter_append,
    List.filter_eq_self.2 (fun c hc => by simp [(hn.2 c hc).1])]
  rw [show (b!" =").filter (fun c => !isSpace c) = b!"=" by decide]
  simp

end WG.DemoClient
