import Verif.Proof.QuickVals
/-! wg-quick's lines as `wg` reads them. -/
namespace WG.Quick
open WG.Spec WG.Spec.Quick

theorem filter_trim (p : UInt8 → Bool) (hp : ∀ c, p c = true → isSpace c = true) (s : CStr) :
    (trim p s).filter (fun c => !isSpace c) = s.filter (fun c => !isSpace c) := by
  obtain ⟨l, r, e, hl, hr, _, _⟩ := of_trim p s
  conv_rhs => rw [e]
  have z : ∀ x : CStr, (∀ c ∈ x, p c = true) → x.filter (fun c => !isSpace c) = [] := by
    intro x hx
    rw [List.filter_eq_nil_iff]
    intro c hc
    simp [hp c (hx c hc)]
  simp [List.filter_append, z l hl, z r hr]

theorem ifs_isSpace : ∀ c, isIfs c = true → isSpace c = true := by apply forall_u8; decide +kernel

theorem cleaned_append_blank (s r : CStr) (hr : ∀ c ∈ r, isSpace c = true) : cleaned (s ++ r) = cleaned s := by
  have hr' : ∀ (x : CStr), (∀ c ∈ x, isSpace c = true) → (x.takeWhile (fun x => decide (x ≠ c!"#"))).filter (fun c => !isSpace c) = [] := by
    intro x hx
    rw [List.filter_eq_nil_iff]
    intro c hc
    simp [hx c ((List.takeWhile_sublist _).subset hc)]
  unfold cleaned
  induction s with
  | nil => simpa using hr' r hr
  | cons c s ih =>
    simp only [List.cons_append, List.takeWhile_cons]
    split
    · simp only [List.filter_cons]
      rw [ih]
    · rfl

theorem cleaned_prepend_blank (l s : CStr) (hl : ∀ c ∈ l, isSpace c = true) : cleaned (l ++ s) = cleaned s := by
  induction l with
  | nil => rfl
  | cons c l ih =>
    have hc := hl c (by simp)
    have hne : c ≠ c!"#" := by rintro rfl; revert hc; decide
    have := ih fun c h => hl c (by simp [h])
    unfold cleaned at this ⊢
    simp only [List.cons_append, List.takeWhile_cons, hne, ne_eq, not_false_eq_true, decide_true, if_true, List.filter_cons, hc,
      Bool.not_true, Bool.false_eq_true, if_false]
    exact this

theorem cleaned_trim (s : CStr) : cleaned (trim isIfs s) = cleaned s := by
  obtain ⟨l, r, e, hl, hr, _, _⟩ := of_trim isIfs s
  conv_rhs => rw [e]
  rw [cleaned_append_blank _ _ fun c h => ifs_isSpace c (hr c h), cleaned_prepend_blank _ _ fun c h => ifs_isSpace c (hl c h)]

/-- The text that counts of a line whose key is `k'`. -/
theorem cleaned_key (l : CStr) : ∃ rest, cleaned l = (keyOf (strippedOf l)).filter (fun c => !isSpace c) ++ rest ∧
    (rest = [] ∨ ∃ r, rest = c!"=" :: r) := by
  have e : cleaned l = (strippedOf l).filter fun c => !isSpace c := rfl
  rw [e]
  have h1 : (keyOf (strippedOf l)).filter (fun c => !isSpace c) = ((strippedOf l).takeWhile (· ≠ c!"=")).filter fun c => !isSpace c := by
    unfold keyOf
    rw [filter_trim _ (fun c h => by rwa [isBlank_eq] at h)]
  obtain ⟨_, h | ⟨r, h⟩⟩ := (before_iff c!"=" (strippedOf l) _).2 rfl
  · exact ⟨[], by rw [h1, List.append_nil, ← h], .inl rfl⟩
  · refine ⟨c!"=" :: r.filter fun c => !isSpace c, ?_, .inr ⟨_, rfl⟩⟩
    rw [h1]
    conv_lhs => rw [h]
    rw [List.filter_append, List.filter_cons]
    rfl

theorem own_noSpace : ∀ k ∈ ownKeys, ∀ c ∈ k, isSpace c = false := by decide
theorem own_noEq : ∀ k ∈ ownKeys, c!"=" ∉ k := by decide
theorem lower_space : ∀ c : UInt8, isSpace (lower c) = isSpace c := by apply forall_u8; decide +kernel

theorem own_refused (env : Env) (ctx : Ctx) {before : List CStr} {l k v : CStr} (h : OwnLine before l k v) :
    configReadLine env ctx l = .fail := by
  obtain ⟨_, hk, ⟨k', hk', e⟩, _⟩ := h
  rw [hasKey_iff] at hk'
  obtain ⟨rest, hcl, hrest⟩ := cleaned_key l
  rw [← hk'] at hcl
  clear hk'
  have hns : ∀ c ∈ k', isSpace c = false := by
    intro c hc
    rw [← lower_space c]
    exact own_noSpace k hk _ (by rw [← show k'.map lower = k from e]; exact List.mem_map_of_mem hc)
  have hne : c!"=" ∉ k' := by
    intro hc
    exact own_noEq k hk (by rw [← show k'.map lower = k from e]; exact List.mem_map.2 ⟨_, hc, rfl⟩)
  rw [List.filter_eq_self.2 (by intro c hc; simp [hns c hc])] at hcl
  have hk0 : k' ≠ [] := by
    rintro rfl
    have : k = [] := e.symm
    subst this; revert hk; decide
  have hlen : ¬ (cleanLine env l).length = 0 := by
    rw [cleanLine_eq, hcl]
    have := List.length_pos_of_ne_nil hk0
    simp only [List.length_append]
    omega
  have hv : ∀ K : CStr, K.map lower ≠ k → getValue (cleanLine env l) (K ++ [61]) = none ∨ c!"=" ∈ K := by
    intro K hK
    by_cases hKe : c!"=" ∈ K
    · exact .inr hKe
    left
    rcases hg : getValue (cleanLine env l) (K ++ [61]) with _ | v
    · rfl
    exfalso
    obtain ⟨_, q, hq, hl⟩ := (getValue_iff _ _ _).1 hg
    rw [cleanLine_eq, hcl] at hl
    have hqe : c!"=" ∉ q := by
      intro hc
      apply hKe
      have : lower c!"=" ∈ K.map lower := by rw [← hq]; exact List.mem_map_of_mem hc
      obtain ⟨d, hd, hd'⟩ := List.mem_map.1 this
      have : d = c!"=" := (lower_eq_61 d).1 hd'
      rwa [← this]
    have : k' = q := by
      rcases hrest with rfl | ⟨r, rfl⟩
      · rw [List.append_nil] at hl
        exact absurd (by rw [hl]; simp) hne
      · have h1 := (before_iff c!"=" (k' ++ c!"=" :: r) k').1 ⟨hne, .inr ⟨r, rfl⟩⟩
        have h2 := (before_iff c!"=" (k' ++ c!"=" :: r) q).1 ⟨hqe, .inr ⟨v, hl⟩⟩
        rw [h1, h2]
    subst this
    exact hK (hq.symm.trans e)
  have hh : ∀ w : CStr, w.head? = some c!"[" → strcaseeq (cleanLine env l) w = false := by
    intro w hw
    rw [Bool.eq_false_iff]
    intro he
    rw [strcaseeq_iff, cleanLine_eq, hcl, List.map_append, show k'.map lower = k from e] at he
    obtain ⟨c, w', rfl⟩ : ∃ c w', w = c :: w' := by cases w with | nil => simp at hw | cons c w' => exact ⟨c, w', rfl⟩
    simp only [List.head?_cons, Option.some.injEq] at hw
    subst hw
    have : k.head? = some (lower c!"[") := by
      cases k with
      | nil => revert hk; decide
      | cons d k => simp only [List.cons_append, List.map_cons, List.cons.injEq] at he; simp [he.1]
    revert hk this
    have : ∀ k ∈ ownKeys, k.head? ≠ some (lower c!"[") := by decide
    exact fun hk he => this k hk he
  have nk : ∀ K ∈ [b!"ListenPort", b!"FwMark", b!"PrivateKey", b!"Endpoint", b!"PublicKey", b!"AllowedIPs", b!"PersistentKeepalive",
      b!"PresharedKey"], ∀ k ∈ ownKeys, K.map lower ≠ k ∧ c!"=" ∉ K := by decide
  have gn : ∀ K ∈ [b!"ListenPort", b!"FwMark", b!"PrivateKey", b!"Endpoint", b!"PublicKey", b!"AllowedIPs", b!"PersistentKeepalive",
      b!"PresharedKey"], getValue (cleanLine env l) (K ++ [61]) = none := by
    intro K hK
    exact (hv K (nk K hK k hk).1).resolve_right (nk K hK k hk).2
  have g1 := gn b!"ListenPort" (by decide)
  have g2 := gn b!"FwMark" (by decide)
  have g3 := gn b!"PrivateKey" (by decide)
  have g4 := gn b!"Endpoint" (by decide)
  have g5 := gn b!"PublicKey" (by decide)
  have g6 := gn b!"AllowedIPs" (by decide)
  have g7 := gn b!"PersistentKeepalive" (by decide)
  have g8 := gn b!"PresharedKey" (by decide)
  simp only [List.cons_append, List.nil_append] at g1 g2 g3 g4 g5 g6 g7 g8
  unfold configReadLine
  dsimp only
  rw [if_neg hlen]
  unfold processLine
  rw [hh _ rfl, hh _ rfl, g1, g2, g3, g4, g5, g6, g7, g8]
  simp

/-! ### Reading the stripped text -/

theorem readLine_noLF {s : CStr} (h : (10 : UInt8) ∉ s) : (10 : UInt8) ∉ readLine s := by
  obtain ⟨l, r, e, _⟩ := of_trim isIfs (s.filter (· ≠ 0))
  intro hc
  apply h
  have : (10 : UInt8) ∈ s.filter (· ≠ 0) := by rw [e]; exact List.mem_append_left _ (List.mem_append_right _ hc)
  exact List.mem_of_mem_filter this

theorem readLine_noNul (s : CStr) : (0 : UInt8) ∉ readLine s := by
  obtain ⟨l, r, e, _⟩ := of_trim isIfs (s.filter (· ≠ 0))
  intro hc
  have : (0 : UInt8) ∈ s.filter (· ≠ 0) := by rw [e]; exact List.mem_append_left _ (List.mem_append_right _ hc)
  simp at this

theorem bodyLines_bytes (content : List UInt8) : ∀ l ∈ bodyLines content, (10 : UInt8) ∉ l ∧ (0 : UInt8) ∉ l := by
  obtain ⟨hc, hs, hl⟩ := splitLF_spec content
  rw [hc, bodyLines_of _ _ hs hl]
  intro l h
  rw [List.mem_append] at h
  rcases h with h | h
  · obtain ⟨s, hs', rfl⟩ := List.mem_map.1 h
    exact ⟨readLine_noLF (hs s hs'), readLine_noNul s⟩
  · split at h
    · simp at h
    · rw [List.mem_singleton] at h; subst h
      exact ⟨readLine_noLF hl, readLine_noNul _⟩

theorem says_sublist {lines kept : List CStr} {sets : List (CStr × CStr)} (h : Says lines kept sets) : kept.Sublist lines := by
  induction h with
  | nil => exact List.Sublist.refl _
  | own _ _ ih => exact ih.trans (List.sublist_append_left _ _)
  | keep _ _ ih => exact ih.append (List.Sublist.refl _)

theorem cstr_self (l : CStr) (h : (0 : UInt8) ∉ l) : cstr l = l := by
  unfold cstr
  rw [List.takeWhile_eq_self_iff]
  intro c hc; simp only [decide_eq_true_eq]; rintro rfl; exact h hc

theorem readLines_cleaned_congr (env : Env) (ctx : Ctx) (xs ys : List CStr) (h : (xs.map cleaned).filter (· ≠ []) = (ys.map cleaned).filter (· ≠ [])) :
    readLines env ctx xs = readLines env ctx ys := by
  rw [readLines_eq, readLines_eq, h]

/-- What counts of some lines. -/
def cleanLines (ls : List CStr) : List CStr := (ls.map cleaned).filter (· ≠ [])

theorem cleanLines_kept (kept : List CStr) (h : ∀ l ∈ kept, (10 : UInt8) ∉ l ∧ (0 : UInt8) ∉ l) :
    cleanLines ((getlines (kept.flatMap (· ++ [10]) ++ [10])).map cstr) = cleanLines kept := by
  unfold cleanLines
  have e : kept.flatMap (· ++ [10]) ++ [10] = (kept ++ [[]]).flatMap (· ++ [10]) ++ [] := by simp
  rw [e, getlines_of _ _ (by
    intro s hs
    rw [List.mem_append, List.mem_singleton] at hs
    rcases hs with hs | rfl
    · exact (h s hs).1
    · simp) (by simp)]
  have hl : ∀ l ∈ kept, cleaned (cstr (l ++ [10])) = cleaned l := by
    intro l hl
    rw [cstr_self _ (by simp [(h l hl).2])]
    exact cleaned_append_blank l [10] (by decide)
  simp only [if_true, List.append_nil, List.map_append, List.map_map, List.filter_append]
  have h0 : (List.map (cleaned ∘ cstr ∘ fun x => x ++ [10]) [[]]).filter (· ≠ []) = [] := by decide
  have h1 : kept.map (cleaned ∘ cstr ∘ fun x => x ++ [10]) = kept.map cleaned := List.map_congr_left fun l hl' => hl l hl'
  rw [h0, h1, List.append_nil]

/-- Reading the passed-on text is reading the kept lines. -/
theorem readLines_kept (env : Env) (ctx : Ctx) (kept : List CStr) (h : ∀ l ∈ kept, (10 : UInt8) ∉ l ∧ (0 : UInt8) ∉ l) :
    readLines env ctx ((getlines (kept.flatMap (· ++ [10]) ++ [10])).map cstr) = readLines env ctx kept :=
  readLines_cleaned_congr env ctx _ _ (cleanLines_kept kept h)

theorem cleanLines_body (content : List UInt8) (h0 : (0 : UInt8) ∉ content) :
    cleanLines (bodyLines content) = cleanLines ((getlines content).map cstr) := by
  unfold cleanLines
  obtain ⟨hc, hs, hl⟩ := splitLF_spec content
  generalize (splitLF content).1 = segs at *
  generalize (splitLF content).2 = last at *
  subst hc
  have hz : ∀ s ∈ segs, (0 : UInt8) ∉ s := by
    intro s hs hc
    exact h0 (by rw [List.mem_append, List.mem_flatMap]; left; exact ⟨s, hs, by simp [hc]⟩)
  have hz2 : (0 : UInt8) ∉ last := fun hc => h0 (by simp [hc])
  rw [bodyLines_of _ _ hs hl, getlines_of _ _ hs hl]
  have rl : ∀ s : CStr, (0 : UInt8) ∉ s → cleaned (readLine s) = cleaned s := by
    intro s h
    unfold readLine
    rw [cleaned_trim, List.filter_eq_self.2]
    intro c hc; simp only [decide_eq_true_eq]; rintro rfl; exact h hc
  simp only [List.map_append, List.map_map, List.filter_append]
  congr 1
  · congr 1
    apply List.map_congr_left
    intro s hs'
    simp only [Function.comp]
    rw [rl s (hz s hs'), cstr_self _ (by simp [hz s hs'])]
    exact (cleaned_append_blank s [10] (by decide)).symm
  · have e := rl last hz2
    by_cases h1 : last = []
    · subst h1; simp [readLine, trim]
    · rw [if_neg h1]
      by_cases h2 : readLine last = []
      · rw [if_pos h2]
        rw [h2] at e
        have e' : cleaned last = [] := by rw [← e]; rfl
        simp [cstr_self last hz2, e']
      · rw [if_neg h2]
        simp [cstr_self last hz2, e]

/-- For a file without NUL bytes, reading the lines as the script sees them is reading the file. -/
theorem readLines_body (env : Env) (ctx : Ctx) (content : List UInt8) (h0 : (0 : UInt8) ∉ content) :
    readLines env ctx (bodyLines content) = readLines env ctx ((getlines content).map cstr) :=
  readLines_cleaned_congr env ctx _ _ (cleanLines_body content h0)

end WG.Quick
