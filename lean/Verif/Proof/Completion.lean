import Verif.Spec.Completion
import Verif.Props.Encoding
import Verif.Proof.Command
import Verif.Model.Show
import Mathlib.Data.List.GetD
/-! src/completion/wg.bash-completion. -/
namespace WG.Completion
open WG.Spec WG.Spec.Completion

/-! ### Words -/

/-- Runs of one kind and the other in turn: the kinds of the first and of the last. -/
inductive Alt (brk : UInt8 → Bool) : Bool → List CStr → Bool → Prop
  | one {b g} : g ≠ [] → (∀ c ∈ g, brk c = b) → Alt brk b [g] b
  | cons {b g gs e} : g ≠ [] → (∀ c ∈ g, brk c = b) → Alt brk (!b) gs e → Alt brk b (g :: gs) e

theorem wordsOf_alt (brk : UInt8 → Bool) (c : UInt8) (r : CStr) :
    Alt brk (brk c) (wordsOf brk (c :: r)) (brk ((c :: r).getLast (by simp))) := by
  induction r generalizing c with
  | nil => exact .one (by simp) (by simp)
  | cons d r ih =>
    have h := ih d
    rw [wordsOf, List.getLast_cons (by simp)]
    generalize brk ((d :: r).getLast _) = e at h
    cases hw : wordsOf brk (d :: r) with
    | nil => rw [hw] at h; cases h
    | cons g gs =>
      rw [hw] at h
      simp only
      by_cases hb : brk c = brk d
      · rw [if_pos hb, hb]
        cases h with
        | one hne ha => exact .one (by simp) (by simpa [hb] using ha)
        | cons hne ha h => exact .cons (by simp) (by simpa [hb] using ha) h
      · rw [if_neg hb]
        have : brk d = !brk c := by revert hb; cases brk c <;> cases brk d <;> simp
        rw [this] at h
        exact .cons (by simp) (by simp) h

/-- Runs of breaking characters, each followed by another word. -/
inductive Skips (brk : UInt8 → Bool) : List CStr → Prop
  | nil : Skips brk []
  | cons {b w gs} : b ≠ [] → (∀ c ∈ b, brk c = true) → w ≠ [] → Skips brk gs → Skips brk (b :: w :: gs)

theorem alt_skips {brk b gs e} (h : Alt brk b gs e) : (b = true → e = false → Skips brk gs) ∧
    (b = false → e = false → ∃ w gs', gs = w :: gs' ∧ w ≠ [] ∧ Skips brk gs') := by
  induction h with
  | one hne ha =>
    refine ⟨?_, ?_⟩
    · rintro rfl h; cases h
    · rintro _ _; exact ⟨_, [], rfl, hne, .nil⟩
  | cons hne ha h ih =>
    refine ⟨?_, ?_⟩
    · rintro rfl he
      obtain ⟨w, gs', rfl, hw, hs⟩ := ih.2 rfl he
      exact .cons hne ha hw hs
    · rintro rfl he
      exact ⟨_, _, rfl, hne, ih.1 rfl he⟩

theorem inner_words {brk v} (h : Inner brk v) : ∃ w gs, wordsOf brk v = w :: gs ∧ w ≠ [] ∧ Skips brk gs := by
  obtain ⟨c, d, h1, h2, hc, hd⟩ := h
  cases v with
  | nil => simp at h1
  | cons x r =>
    have ha := wordsOf_alt brk x r
    simp at h1
    subst h1
    rw [List.getLast?_eq_some_getLast (by simp)] at h2
    rw [Option.some.inj h2] at ha
    exact (alt_skips ha).2 hc hd

theorem wordsOf_flatten (brk : UInt8 → Bool) (v : CStr) : (wordsOf brk v).flatten = v := by
  match v with
  | [] => rfl
  | [c] => rfl
  | c :: d :: r =>
    have ih := wordsOf_flatten brk (d :: r)
    rw [wordsOf]
    cases hw : wordsOf brk (d :: r) with
    | nil => rw [hw] at ih; simp at ih
    | cons g gs =>
      rw [hw] at ih
      simp only
      split <;> simp [← ih]

theorem wordsOf_same (brk : UInt8 → Bool) (b : Bool) (v : CStr) (hne : v ≠ []) (h : ∀ c ∈ v, brk c = b) : wordsOf brk v = [v] := by
  match v with
  | [] => exact absurd rfl hne
  | [c] => rfl
  | c :: d :: r =>
    rw [wordsOf, wordsOf_same brk b (d :: r) (by simp) (fun x hx => h x (by simp [hx]))]
    simp [h c (by simp), h d (by simp)]

theorem wordsOf_two (brk : UInt8 → Bool) (v : CStr) (x : UInt8) (hne : v ≠ []) (h : ∀ c ∈ v, brk c = false) (hx : brk x = true) :
    wordsOf brk (v ++ [x]) = [v, [x]] := by
  match v with
  | [] => exact absurd rfl hne
  | [c] => simp [wordsOf, h c (by simp), hx]
  | c :: d :: r =>
    have ih := wordsOf_two brk (d :: r) x (by simp) (fun x hx => h x (by simp [hx])) hx
    show wordsOf brk (c :: d :: (r ++ [x])) = _
    rw [wordsOf]
    rw [show d :: (r ++ [x]) = (d :: r) ++ [x] from rfl, ih]
    simp [h c (by simp), h d (by simp)]

theorem alphabet_usual : ∀ c ∈ b64Alphabet, isAlpha c ∨ isDigit c ∨ c ∈ b!"-/+_." := by decide

theorem key_words {brk} (hu : Usual brk) (k : Key) : ∃ body, rfc4648 k.toList = body ++ b!"=" ∧ body.length = 43 ∧ (∀ c ∈ body, brk c = false) ∧
    wordsOf brk (rfc4648 k.toList) = if brk c!"=" then [body, b!"="] else [rfc4648 k.toList] := by
  obtain ⟨h1, h2, h3⟩ := Props.c02_shape k
  rw [keyToBase64_rfc] at h1 h2 h3
  have e : rfc4648 k.toList = (rfc4648 k.toList).dropLast ++ b!"=" := by
    have hne : rfc4648 k.toList ≠ [] := by intro hc; rw [hc] at h1; simp at h1
    conv => lhs; rw [← List.dropLast_concat_getLast hne]
    rw [List.getLast?_eq_some_getLast hne] at h2
    rw [Option.some.inj h2]
  generalize (rfc4648 k.toList).dropLast = body at *
  have hb : ∀ c ∈ body, brk c = false := fun c hc => hu c (alphabet_usual c (h3 c hc))
  have hl : body.length = 43 := by rw [e] at h1; simp at h1; omega
  have hne : body ≠ [] := by rintro rfl; simp at hl
  refine ⟨body, e, hl, hb, ?_⟩
  by_cases hx : brk c!"=" = true
  · rw [if_pos hx, e]; exact wordsOf_two brk body c!"=" hne hb hx
  · rw [if_neg hx]
    refine wordsOf_same brk false _ (by rw [e]; simp) ?_
    intro c hc
    rw [e] at hc
    rcases List.mem_append.1 hc with hc | hc
    · exact hb c hc
    · simp at hc; subst hc; simpa using hx

/-! ### The loops -/

theorem getD_at (pre post : List CStr) (x : CStr) : (pre ++ x :: post).getD pre.length [] = x := by
  rw [List.getD_append_right _ _ _ _ (Nat.le_refl _)]; simp

def names : List CStr := [b!"listen-port", b!"fwmark", b!"private-key", b!"peer", b!"remove", b!"endpoint", b!"persistent-keepalive",
  b!"allowed-ips", b!"preshared-key"]

theorem names_usual : ∀ n ∈ names, n ≠ [] ∧ ∀ c ∈ n, isAlpha c ∨ isDigit c ∨ c ∈ b!"-/+_." := by decide

theorem name_words {brk} (hu : Usual brk) (n : CStr) (hn : n ∈ names) : wordsOf brk n = [n] :=
  wordsOf_same brk false n (names_usual n hn).1 fun c hc => hu c ((names_usual n hn).2 c hc)

theorem break_name {brk} (hu : Usual brk) {b : CStr} (hne : b ≠ []) (hb : ∀ c ∈ b, brk c = true) : ∀ n ∈ names, b ≠ n := by
  rintro n hn rfl
  cases b with
  | nil => exact hne rfl
  | cons c b =>
    have h1 := hb c (by simp)
    rw [hu c ((names_usual _ hn).2 c (by simp))] at h1
    cases h1

def see (w : CStr) (s : Seen) : Seen :=
  let s := if w = b!"listen-port" then { s with listenPort := true } else s
  let s := if w = b!"fwmark" then { s with fwmark := true } else s
  if w = b!"private-key" then { s with privateKey := true } else s

theorem devLoop_at (pre post : List CStr) (w : CStr) (cword : Nat) (s : Seen) (h : pre.length < cword) (hw : w ≠ b!"peer") :
    devLoop (pre ++ w :: post) cword pre.length s = devLoop (pre ++ w :: post) cword (pre.length + 2) (see w s) := by
  rw [devLoop]
  simp only [h, dite_true, getD_at, hw, if_false]
  rfl

theorem see_other {w : CStr} (h : ∀ n ∈ names, w ≠ n) (s : Seen) : see w s = s := by
  unfold see
  simp [h b!"listen-port" (by decide), h b!"fwmark" (by decide), h b!"private-key" (by decide)]

theorem devLoop_skip {brk} (hu : Usual brk) {gs : List CStr} (hs : Skips brk gs) (pre post : List CStr) (cword : Nat) (s : Seen)
    (h : pre.length + gs.length ≤ cword) :
    devLoop (pre ++ gs ++ post) cword pre.length s = devLoop (pre ++ gs ++ post) cword (pre.length + gs.length) s := by
  induction hs generalizing pre with
  | nil => simp
  | cons hb hbb hw hs ih =>
    rename_i b w gs
    have hn := break_name hu hb hbb
    simp only [List.length_cons] at h
    rw [show pre ++ b :: w :: gs ++ post = pre ++ b :: (w :: gs ++ post) by simp]
    rw [devLoop_at pre _ b cword s (by omega) (hn _ (by decide)), see_other hn]
    have := ih (pre ++ [b, w]) (by simp; omega)
    simp only [List.length_append, List.length_cons, List.length_nil, List.append_assoc, List.cons_append, List.nil_append] at this ⊢
    rw [this]
    congr 1
    omega

theorem devLoop_opt {brk} (hu : Usual brk) (name v : CStr) (hp : name ≠ b!"peer") (hv : Inner brk v) (pre post : List CStr) (cword : Nat) (s : Seen)
    (h : pre.length + 1 + (wordsOf brk v).length ≤ cword) :
    devLoop (pre ++ name :: (wordsOf brk v ++ post)) cword pre.length s =
      devLoop (pre ++ name :: (wordsOf brk v ++ post)) cword (pre.length + 1 + (wordsOf brk v).length) (see name s) := by
  obtain ⟨w, gs, e, hw, hs⟩ := inner_words hv
  rw [e] at h ⊢
  simp only [List.length_cons] at h ⊢
  rw [devLoop_at pre _ name cword s (by omega) hp]
  have := devLoop_skip hu hs (pre ++ [name, w]) post cword (see name s) (by simp; omega)
  simp only [List.length_append, List.length_cons, List.length_nil, List.append_assoc, List.cons_append, List.nil_append] at this ⊢
  rw [this]
  congr 1
  omega

def give (w : CStr) (g : Given) : Given :=
  let g := if w = b!"remove" then { g with remove := true } else g
  let g := if w = b!"endpoint" then { g with endpoint := true } else g
  let g := if w = b!"persistent-keepalive" then { g with keepalive := true } else g
  let g := if w = b!"allowed-ips" then { g with allowedIPs := true } else g
  if w = b!"preshared-key" then { g with presharedKey := true } else g

theorem give_other {w : CStr} (h : ∀ n ∈ names, w ≠ n) (g : Given) : give w g = g := by
  unfold give
  simp [h b!"remove" (by decide), h b!"endpoint" (by decide), h b!"persistent-keepalive" (by decide), h b!"allowed-ips" (by decide),
    h b!"preshared-key" (by decide)]

theorem peerLoop_at (pre post : List CStr) (w : CStr) (cword : Nat) (g : Given) (h : pre.length < cword) (hw : w ≠ b!"peer") :
    peerLoop (pre ++ w :: post) cword pre.length g =
      peerLoop (pre ++ w :: post) cword ((if w = b!"remove" then pre.length else pre.length + 1) + 1) (give w g) := by
  rw [peerLoop]
  simp only [h, dite_true, getD_at, hw, if_false]
  rfl

theorem peerLoop_skip {brk} (hu : Usual brk) {gs : List CStr} (hs : Skips brk gs) (pre post : List CStr) (cword : Nat) (s : Given)
    (h : pre.length + gs.length ≤ cword) :
    peerLoop (pre ++ gs ++ post) cword pre.length s = peerLoop (pre ++ gs ++ post) cword (pre.length + gs.length) s := by
  induction hs generalizing pre with
  | nil => simp
  | cons hb hbb hw hs ih =>
    rename_i b w gs
    have hn := break_name hu hb hbb
    simp only [List.length_cons] at h
    rw [show pre ++ b :: w :: gs ++ post = pre ++ b :: (w :: gs ++ post) by simp]
    rw [peerLoop_at pre _ b cword s (by omega) (hn _ (by decide)), give_other hn, if_neg (hn _ (by decide))]
    have := ih (pre ++ [b, w]) (by simp; omega)
    simp only [List.length_append, List.length_cons, List.length_nil, List.append_assoc, List.cons_append, List.nil_append] at this ⊢
    rw [this]
    congr 1
    omega

theorem peerLoop_opt {brk} (hu : Usual brk) (name v : CStr) (hp : name ≠ b!"peer") (hr : name ≠ b!"remove") (hv : Inner brk v)
    (pre post : List CStr) (cword : Nat) (s : Given) (h : pre.length + 1 + (wordsOf brk v).length ≤ cword) :
    peerLoop (pre ++ name :: (wordsOf brk v ++ post)) cword pre.length s =
      peerLoop (pre ++ name :: (wordsOf brk v ++ post)) cword (pre.length + 1 + (wordsOf brk v).length) (give name s) := by
  obtain ⟨w, gs, e, hw, hs⟩ := inner_words hv
  rw [e] at h ⊢
  simp only [List.length_cons] at h ⊢
  rw [peerLoop_at pre _ name cword s (by omega) hp, if_neg hr]
  have := peerLoop_skip hu hs (pre ++ [name, w]) post cword (give name s) (by simp; omega)
  simp only [List.length_append, List.length_cons, List.length_nil, List.append_assoc, List.cons_append, List.nil_append] at this ⊢
  rw [this]
  congr 1
  omega

/-! ### Whole lines -/

def devPart (brk : UInt8 → Bool) (dev : List (CStr × CStr)) : List CStr := (dev.flatMap fun o => [o.1, o.2]).flatMap (wordsOf brk)

theorem devPart_cons {brk} (hu : Usual brk) (o : CStr × CStr) (dev : List (CStr × CStr)) (hn : o.1 ∈ devNames) :
    devPart brk (o :: dev) = o.1 :: (wordsOf brk o.2 ++ devPart brk dev) := by
  have : o.1 ∈ names := (by decide : ∀ n ∈ devNames, n ∈ names) _ hn
  simp [devPart, name_words hu o.1 this]

theorem dev_not_peer {n : CStr} (hn : n ∈ devNames) : n ≠ b!"peer" := by rintro rfl; revert hn; decide
theorem peer_not_peer {n : CStr} (hn : n ∈ peerNames) : n ≠ b!"peer" := by rintro rfl; revert hn; decide
theorem peer_not_remove {n : CStr} (hn : n ∈ peerNames) : n ≠ b!"remove" := by rintro rfl; revert hn; decide

theorem devLoop_devs {brk} (hu : Usual brk) (dev : List (CStr × CStr)) (hd : ∀ o ∈ dev, o.1 ∈ devNames ∧ Inner brk o.2) (pre post : List CStr)
    (cword : Nat) (s : Seen) (h : pre.length + (devPart brk dev).length ≤ cword) :
    devLoop (pre ++ (devPart brk dev ++ post)) cword pre.length s =
      devLoop (pre ++ (devPart brk dev ++ post)) cword (pre.length + (devPart brk dev).length) (dev.foldl (fun s o => see o.1 s) s) := by
  induction dev generalizing pre s with
  | nil => rfl
  | cons o dev ih =>
    obtain ⟨h1, h2⟩ := hd o (by simp)
    rw [devPart_cons hu o dev h1] at h ⊢
    simp only [List.length_cons, List.length_append] at h
    have e := devLoop_opt hu o.1 o.2 (dev_not_peer h1) h2 pre (devPart brk dev ++ post) cword s (by omega)
    have e2 := ih (fun o ho => hd o (by simp [ho])) (pre ++ o.1 :: wordsOf brk o.2) (see o.1 s) (by simp; omega)
    simp only [List.append_assoc, List.cons_append, List.length_append, List.length_cons] at e e2 ⊢
    rw [e, show pre.length + 1 + (wordsOf brk o.2).length = pre.length + ((wordsOf brk o.2).length + 1) by omega, e2, List.foldl_cons]
    congr 1
    omega

theorem skips_even {brk gs} (h : Skips brk gs) : gs.length % 2 = 0 := by
  induction h with
  | nil => rfl
  | cons _ _ _ _ ih => simp only [List.length_cons]; omega

theorem devPart_even {brk} (hu : Usual brk) (dev : List (CStr × CStr)) (hd : ∀ o ∈ dev, o.1 ∈ devNames ∧ Inner brk o.2) :
    (devPart brk dev).length % 2 = 0 := by
  induction dev with
  | nil => rfl
  | cons o dev ih =>
    obtain ⟨h1, h2⟩ := hd o (by simp)
    have := ih fun o ho => hd o (by simp [ho])
    obtain ⟨w, gs, e, -, hs⟩ := inner_words h2
    have := skips_even hs
    rw [devPart_cons hu o dev h1, e]
    simp only [List.length_cons, List.length_append]
    omega

def OptOk (brk : UInt8 → Bool) (o : PeerOpt) : Prop :=
  (o.1 = b!"remove" ∧ o.2 = none) ∨ (o.1 ∈ peerNames ∧ ∃ v, o.2 = some v ∧ Inner brk v ∧ ¬ b!"peer" <:+ v)

def optWords (brk : UInt8 → Bool) (opts : List PeerOpt) : List CStr := (opts.flatMap fun o => o.1 :: o.2.toList).flatMap (wordsOf brk)

theorem opt_name {brk} {o : PeerOpt} (h : OptOk brk o) : o.1 ∈ names := by
  rcases h with ⟨h, -⟩ | ⟨h, -⟩
  · rw [h]; decide
  · exact (by decide : ∀ n ∈ peerNames, n ∈ names) _ h

theorem optWords_cons {brk} (hu : Usual brk) (o : PeerOpt) (opts : List PeerOpt) (h : OptOk brk o) :
    optWords brk (o :: opts) = o.1 :: (o.2.toList.flatMap (wordsOf brk) ++ optWords brk opts) := by
  simp [optWords, name_words hu o.1 (opt_name h)]

theorem peerLoop_opts {brk} (hu : Usual brk) (opts : List PeerOpt) (hd : ∀ o ∈ opts, OptOk brk o) (pre post : List CStr)
    (cword : Nat) (s : Given) (h : pre.length + (optWords brk opts).length ≤ cword) :
    peerLoop (pre ++ (optWords brk opts ++ post)) cword pre.length s =
      peerLoop (pre ++ (optWords brk opts ++ post)) cword (pre.length + (optWords brk opts).length) (opts.foldl (fun s o => give o.1 s) s) := by
  induction opts generalizing pre s with
  | nil => rfl
  | cons o opts ih =>
    have ho := hd o (by simp)
    rw [optWords_cons hu o opts ho] at h ⊢
    simp only [List.length_cons, List.length_append] at h
    have e2 := ih (fun o ho => hd o (by simp [ho])) (pre ++ o.1 :: o.2.toList.flatMap (wordsOf brk)) (give o.1 s) (by simp only [List.length_append, List.length_cons]; omega)
    simp only [List.append_assoc, List.cons_append, List.length_append, List.length_cons] at e2 ⊢
    rcases ho with ⟨h1, h2⟩ | ⟨h1, v, h2, h3, -⟩
    · have e := peerLoop_at pre (o.2.toList.flatMap (wordsOf brk) ++ (optWords brk opts ++ post)) o.1 cword s (by omega) (by rw [h1]; decide)
      rw [if_pos h1] at e
      rw [e, List.foldl_cons]
      rw [h2] at e2 ⊢
      simp only [Option.toList_none, List.flatMap_nil, List.length_nil, Nat.zero_add, List.nil_append] at e2 ⊢
      rw [e2]
      congr 1
      omega
    · rw [h2] at e2 h ⊢
      simp only [Option.toList_some, List.flatMap_cons, List.flatMap_nil, List.append_nil] at e2 h ⊢
      have e := peerLoop_opt hu o.1 v (peer_not_peer h1) (peer_not_remove h1) h3 pre (optWords brk opts ++ post) cword s (by omega)
      rw [e, show pre.length + 1 + (wordsOf brk v).length = pre.length + ((wordsOf brk v).length + 1) by omega, e2, List.foldl_cons]
      congr 1
      omega

theorem peerLoop_peer {brk} (hu : Usual brk) (k : Key) (pre post : List CStr) (cword : Nat) (s : Given) (hp : post.getD 0 [] ≠ b!"=")
    (h : pre.length + 1 + (wordsOf brk (rfc4648 k.toList)).length ≤ cword) :
    peerLoop (pre ++ b!"peer" :: (wordsOf brk (rfc4648 k.toList) ++ post)) cword pre.length s =
      peerLoop (pre ++ b!"peer" :: (wordsOf brk (rfc4648 k.toList) ++ post)) cword (pre.length + 1 + (wordsOf brk (rfc4648 k.toList)).length) {} := by
  obtain ⟨body, he, hl, hb, hw⟩ := key_words hu k
  rw [hw] at h ⊢
  by_cases hx : brk c!"=" = true
  · rw [if_pos hx] at h ⊢
    have e : (pre ++ b!"peer" :: ([body, b!"="] ++ post)).getD (pre.length + 2) [] = b!"=" := by
      have := getD_at (pre ++ [b!"peer", body]) post b!"="
      rw [List.append_assoc, List.length_append] at this
      exact this
    rw [peerLoop]
    simp only [show pre.length < cword by omega, dite_true, getD_at, if_true, e]
    rfl
  · rw [if_neg hx] at h ⊢
    have e : (pre ++ b!"peer" :: ([rfc4648 k.toList] ++ post)).getD (pre.length + 2) [] = post.getD 0 [] := by
      rw [show pre ++ b!"peer" :: ([rfc4648 k.toList] ++ post) = (pre ++ [b!"peer", rfc4648 k.toList]) ++ post by simp]
      rw [List.getD_append_right _ _ _ _ (by simp)]
      simp
    rw [peerLoop]
    simp only [show pre.length < cword by omega, dite_true, getD_at, if_true, e]
    rw [if_neg hp]
    rfl

def peerPart (brk : UInt8 → Bool) (peers : List (Key × List PeerOpt)) : List CStr :=
  (peers.flatMap fun p => b!"peer" :: rfc4648 p.1.toList :: p.2.flatMap fun o => o.1 :: o.2.toList).flatMap (wordsOf brk)

theorem peerPart_cons {brk} (hu : Usual brk) (p : Key × List PeerOpt) (peers : List (Key × List PeerOpt)) :
    peerPart brk (p :: peers) = b!"peer" :: (wordsOf brk (rfc4648 p.1.toList) ++ (optWords brk p.2 ++ peerPart brk peers)) := by
  simp [peerPart, optWords, name_words hu b!"peer" (by decide)]

def givenBy (opts : List PeerOpt) : Given := opts.foldl (fun s o => give o.1 s) {}

theorem name_not_eq {n : CStr} (h : n ∈ names) : n ≠ b!"=" := by rintro rfl; revert h; decide

theorem opts_head {brk} (hu : Usual brk) (opts : List PeerOpt) (hd : ∀ o ∈ opts, OptOk brk o) (rest : List CStr) (hr : rest.getD 0 [] ≠ b!"=") :
    (optWords brk opts ++ rest).getD 0 [] ≠ b!"=" := by
  cases opts with
  | nil => exact hr
  | cons o opts =>
    rw [optWords_cons hu o opts (hd o (by simp))]
    exact name_not_eq (opt_name (hd o (by simp)))

theorem peers_head {brk} (hu : Usual brk) (peers : List (Key × List PeerOpt)) (rest : List CStr) (hr : rest.getD 0 [] ≠ b!"=") :
    (peerPart brk peers ++ rest).getD 0 [] ≠ b!"=" := by
  cases peers with
  | nil => exact hr
  | cons p peers => rw [peerPart_cons hu]; show b!"peer" ≠ _; decide

theorem peerLoop_peers {brk} (hu : Usual brk) (peers : List (Key × List PeerOpt)) (hd : ∀ p ∈ peers, ∀ o ∈ p.2, OptOk brk o) (pre post : List CStr)
    (hp : post.getD 0 [] ≠ b!"=") (cword : Nat) (s : Given) (h : pre.length + (peerPart brk peers).length ≤ cword) :
    peerLoop (pre ++ (peerPart brk peers ++ post)) cword pre.length s =
      peerLoop (pre ++ (peerPart brk peers ++ post)) cword (pre.length + (peerPart brk peers).length)
        ((peers.getLast?.map fun p => givenBy p.2).getD s) := by
  induction peers generalizing pre s with
  | nil => rfl
  | cons p peers ih =>
    rw [peerPart_cons hu] at h ⊢
    simp only [List.length_cons, List.length_append] at h
    have hh := peers_head hu peers post hp
    have e1 := peerLoop_peer hu p.1 pre (optWords brk p.2 ++ (peerPart brk peers ++ post)) cword s (opts_head hu p.2 (hd p (by simp)) _ hh) (by omega)
    have e2 := peerLoop_opts hu p.2 (hd p (by simp)) (pre ++ b!"peer" :: wordsOf brk (rfc4648 p.1.toList)) (peerPart brk peers ++ post) cword {} (by simp; omega)
    have e3 := ih (fun q hq => hd q (by simp [hq])) (pre ++ b!"peer" :: (wordsOf brk (rfc4648 p.1.toList) ++ optWords brk p.2)) (givenBy p.2) (by simp; omega)
    simp only [List.append_assoc, List.cons_append, List.length_append, List.length_cons] at e1 e2 e3 ⊢
    rw [e1, show pre.length + 1 + (wordsOf brk (rfc4648 p.1.toList)).length = pre.length + ((wordsOf brk (rfc4648 p.1.toList)).length + 1) by omega, e2,
      show pre.length + ((wordsOf brk (rfc4648 p.1.toList)).length + 1) + (optWords brk p.2).length =
        pre.length + ((wordsOf brk (rfc4648 p.1.toList)).length + (optWords brk p.2).length + 1) by omega]
    rw [show List.foldl (fun s o => give o.1 s) {} p.2 = givenBy p.2 from rfl, e3]
    congr 1
    · omega
    · cases peers with
      | nil => rfl
      | cons q peers =>
        rw [List.getLast?_cons_cons]
        cases hq : (q :: peers).getLast? with
        | none => simp at hq
        | some r => rfl

theorem seen_all (dev : List (CStr × CStr)) (s : Seen) : let s' := dev.foldl (fun s o => see o.1 s) s
    s'.listenPort = (s.listenPort || decide (b!"listen-port" ∈ dev.map (·.1))) ∧ s'.fwmark = (s.fwmark || decide (b!"fwmark" ∈ dev.map (·.1))) ∧
    s'.privateKey = (s.privateKey || decide (b!"private-key" ∈ dev.map (·.1))) ∧ s'.peer = s.peer := by
  induction dev generalizing s with
  | nil => simp
  | cons o dev ih =>
    obtain ⟨h1, h2, h3, h4⟩ := ih (see o.1 s)
    simp only [List.foldl_cons, List.map_cons, List.mem_cons]
    rw [h1, h2, h3, h4]
    unfold see
    by_cases a1 : o.1 = b!"listen-port"
    · rw [a1]; simp
    by_cases a2 : o.1 = b!"fwmark"
    · rw [a2]; simp
    by_cases a3 : o.1 = b!"private-key"
    · rw [a3]; simp
    simp [a1, a2, a3, Ne.symm a1, Ne.symm a2, Ne.symm a3]

theorem given_all (opts : List PeerOpt) (s : Given) : let s' := opts.foldl (fun s o => give o.1 s) s
    s'.remove = (s.remove || decide (b!"remove" ∈ opts.map (·.1))) ∧ s'.endpoint = (s.endpoint || decide (b!"endpoint" ∈ opts.map (·.1))) ∧
    s'.keepalive = (s.keepalive || decide (b!"persistent-keepalive" ∈ opts.map (·.1))) ∧
    s'.allowedIPs = (s.allowedIPs || decide (b!"allowed-ips" ∈ opts.map (·.1))) ∧
    s'.presharedKey = (s.presharedKey || decide (b!"preshared-key" ∈ opts.map (·.1))) := by
  induction opts generalizing s with
  | nil => simp
  | cons o opts ih =>
    obtain ⟨h1, h2, h3, h4, h5⟩ := ih (give o.1 s)
    simp only [List.foldl_cons, List.map_cons, List.mem_cons]
    rw [h1, h2, h3, h4, h5]
    unfold give
    by_cases a1 : o.1 = b!"remove"
    · rw [a1]; simp
    by_cases a2 : o.1 = b!"endpoint"
    · rw [a2]; simp
    by_cases a3 : o.1 = b!"persistent-keepalive"
    · rw [a3]; simp
    by_cases a4 : o.1 = b!"allowed-ips"
    · rw [a4]; simp
    by_cases a5 : o.1 = b!"preshared-key"
    · rw [a5]; simp
    simp [a1, a2, a3, a4, a5, Ne.symm a1, Ne.symm a2, Ne.symm a3, Ne.symm a4, Ne.symm a5]

theorem devWords_eq (dev : List (CStr × CStr)) :
    devWords (dev.foldl (fun s o => see o.1 s) {}) = (devNames.filter fun n => n ∉ dev.map (·.1)) ++ [b!"peer"] := by
  obtain ⟨h1, h2, h3, -⟩ := seen_all dev {}
  unfold devWords
  simp only at h1 h2 h3
  rw [h1, h2, h3]
  simp only [devNames, Bool.false_or, decide_eq_true_eq]
  by_cases a1 : b!"listen-port" ∈ dev.map (·.1) <;> by_cases a2 : b!"fwmark" ∈ dev.map (·.1) <;> by_cases a3 : b!"private-key" ∈ dev.map (·.1) <;>
    simp only [a1, a2, a3, if_true, if_false, List.filter_cons, List.filter_nil, decide_true, decide_false, not_true_eq_false, not_false_eq_true,
      Bool.false_eq_true, List.nil_append, List.cons_append]

theorem peerWords_eq (opts : List PeerOpt) : peerWords (givenBy opts) = if b!"remove" ∈ opts.map (·.1) then [b!"peer"]
    else (peerNames.filter fun n => n ∉ opts.map (·.1)) ++ [b!"remove", b!"peer"] := by
  obtain ⟨h1, h2, h3, h4, h5⟩ := given_all opts {}
  unfold peerWords givenBy
  simp only at h1 h2 h3 h4 h5
  rw [h1, h2, h3, h4, h5]
  simp only [peerNames, Bool.false_or, decide_eq_true_eq]
  by_cases a1 : b!"remove" ∈ opts.map (·.1)
  · simp only [a1, if_true, List.nil_append]
  · simp only [a1, if_false]
    by_cases a2 : b!"endpoint" ∈ opts.map (·.1) <;> by_cases a3 : b!"persistent-keepalive" ∈ opts.map (·.1) <;>
      by_cases a4 : b!"allowed-ips" ∈ opts.map (·.1) <;> by_cases a5 : b!"preshared-key" ∈ opts.map (·.1) <;>
      simp only [a2, a3, a4, a5, if_true, if_false, List.filter_cons, List.filter_nil, decide_true, decide_false, not_true_eq_false, not_false_eq_true,
        Bool.false_eq_true, List.nil_append, List.cons_append]

theorem expand_dev {expand} (he : Expands expand) (s : Seen) : expand (joined (devWords s)) = devWords s := by
  obtain ⟨a, b, c, p⟩ := s
  rw [show devWords ⟨a, b, c, p⟩ = devWords ⟨a, b, c, 0⟩ from rfl, he]
  · cases a <;> cases b <;> cases c <;> rfl
  · cases a <;> cases b <;> cases c <;> decide

theorem expand_peer {expand} (he : Expands expand) (s : Given) : expand (joined (peerWords s)) = peerWords s := by
  obtain ⟨a, b, c, d, e⟩ := s
  rw [he]
  · cases a <;> cases b <;> cases c <;> cases d <;> cases e <;> rfl
  · cases a <;> cases b <;> cases c <;> cases d <;> cases e <;> decide

theorem typed_eq (brk : UInt8 → Bool) (iface cur : CStr) (args : List CStr) :
    typed brk iface args cur = [b!"wg", b!"set", iface] ++ (args.flatMap (wordsOf brk) ++ [cur]) := by simp [typed]

/-- `wg set`, once there is an interface. -/
theorem complete_set (env : Env) (iface : CStr) (rest : List CStr) (n : Nat) :
    complete env ([b!"wg", b!"set", iface] ++ rest) (3 + n) = completeSet env ([b!"wg", b!"set", iface] ++ rest) (3 + n) := by
  unfold complete
  have h1 : ([b!"wg", b!"set", iface] ++ rest).getD 1 [] = b!"set" := rfl
  simp only [h1]
  rw [if_neg (by omega), if_neg (by decide), if_neg (by decide), if_neg (by omega), if_neg (by rintro ⟨-, h, -⟩; revert h; decide),
    if_neg (by rintro ⟨-, h⟩; revert h; decide), if_neg (by decide)]

theorem line_words (brk : UInt8 → Bool) (l : Line) : l.args.flatMap (wordsOf brk) = devPart brk l.dev ++ peerPart brk l.peers := by
  simp [Line.args, devPart, peerPart]

theorem getD_cur (pre : List CStr) (body : List CStr) (cur : CStr) (aft : List CStr) : (pre ++ (body ++ cur :: aft)).getD (pre.length + body.length) [] = cur := by
  rw [← List.append_assoc, ← List.length_append]
  exact getD_at _ _ _

/-- The first loop, in front of a peer or at the end. -/
theorem seen_peer {brk} (hu : Usual brk) (dev : List (CStr × CStr)) (hd : ∀ o ∈ dev, o.1 ∈ devNames ∧ Inner brk o.2) (iface : CStr) (rest : List CStr) (cword : Nat)
    (h : 3 + (devPart brk dev).length < cword) :
    (devLoop ([b!"wg", b!"set", iface] ++ (devPart brk dev ++ b!"peer" :: rest)) cword 3 {}).peer = 3 + (devPart brk dev).length := by
  have e := devLoop_devs hu dev hd [b!"wg", b!"set", iface] (b!"peer" :: rest) cword {} (by simp only [List.length_cons, List.length_nil]; omega)
  rw [show [b!"wg", b!"set", iface].length = 3 from rfl] at e
  rw [e, devLoop]
  have g : ([b!"wg", b!"set", iface] ++ (devPart brk dev ++ b!"peer" :: rest)).getD (3 + (devPart brk dev).length) [] = b!"peer" := getD_cur _ _ _ _
  simp only [h, dite_true, g, if_true]

theorem seen_none {brk} (hu : Usual brk) (dev : List (CStr × CStr)) (hd : ∀ o ∈ dev, o.1 ∈ devNames ∧ Inner brk o.2) (iface : CStr) (rest : List CStr) :
    devLoop ([b!"wg", b!"set", iface] ++ (devPart brk dev ++ rest)) (3 + (devPart brk dev).length) 3 {} = dev.foldl (fun s o => see o.1 s) {} := by
  have e := devLoop_devs hu dev hd [b!"wg", b!"set", iface] rest (3 + (devPart brk dev).length) {} (by simp only [List.length_cons, List.length_nil]; omega)
  rw [show [b!"wg", b!"set", iface].length = 3 from rfl] at e
  rw [e, devLoop]
  simp

/-- The last word of the options of peers is never `peer`. -/
theorem last_word {brk} (hu : Usual brk) (peers : List (Key × List PeerOpt)) (hne : peers ≠ []) (hd : ∀ p ∈ peers, ∀ o ∈ p.2, OptOk brk o) :
    ∃ pre w, peerPart brk peers = pre ++ [w] ∧ w ≠ b!"peer" := by
  have aux : ∀ (a b : List CStr), (∃ pre w, b = pre ++ [w] ∧ w ≠ b!"peer") → ∃ pre w, a ++ b = pre ++ [w] ∧ w ≠ b!"peer" := by
    rintro a b ⟨pre, w, rfl, h⟩; exact ⟨a ++ pre, w, by simp, h⟩
  have key : ∀ k : Key, ∃ pre w, wordsOf brk (rfc4648 k.toList) = pre ++ [w] ∧ w ≠ b!"peer" := by
    intro k
    obtain ⟨body, he, hl, -, hw⟩ := key_words hu k
    by_cases hx : brk c!"=" = true
    · exact ⟨[body], b!"=", by rw [hw, if_pos hx]; rfl, by decide⟩
    · refine ⟨[], rfc4648 k.toList, by rw [hw, if_neg hx]; rfl, ?_⟩
      intro hc
      have := congrArg List.length hc
      rw [he] at this
      simp [hl] at this
  have val : ∀ v, Inner brk v → ¬ b!"peer" <:+ v → ∃ pre w, wordsOf brk v = pre ++ [w] ∧ w ≠ b!"peer" := by
    intro v hv hp
    obtain ⟨w, gs, e, -, -⟩ := inner_words hv
    have hf := wordsOf_flatten brk v
    rcases List.eq_nil_or_concat (wordsOf brk v) with h | ⟨pre, x, h⟩
    · rw [e] at h; cases h
    · rw [List.concat_eq_append] at h
      refine ⟨pre, x, h, ?_⟩
      rintro rfl
      apply hp
      rw [← hf, h]
      exact ⟨pre.flatten, by simp⟩
  have opts : ∀ os : List PeerOpt, os ≠ [] → (∀ o ∈ os, OptOk brk o) → ∃ pre w, optWords brk os = pre ++ [w] ∧ w ≠ b!"peer" := by
    intro os hne ho
    induction os with
    | nil => exact absurd rfl hne
    | cons o os ih =>
      rw [optWords_cons hu o os (ho o (by simp))]
      cases os with
      | nil =>
        rcases ho o (by simp) with ⟨h1, h2⟩ | ⟨h1, v, h2, h3, h4⟩
        · refine ⟨[], o.1, ?_, by rw [h1]; decide⟩
          rw [h2]; rfl
        · rw [h2]
          have := aux [o.1] _ (val v h3 h4)
          simpa [optWords] using this
      | cons q os =>
        have := aux (o.1 :: o.2.toList.flatMap (wordsOf brk)) _ (ih (by simp) fun x hx => ho x (by simp [hx]))
        simpa using this
  induction peers with
  | nil => exact absurd rfl hne
  | cons p peers ih =>
    rw [peerPart_cons hu]
    cases peers with
    | nil =>
      by_cases ho : p.2 = []
      · have := aux [b!"peer"] _ (key p.1)
        rw [ho]
        simpa [optWords, peerPart] using this
      · have := aux (b!"peer" :: wordsOf brk (rfc4648 p.1.toList)) _ (opts p.2 ho (hd p (by simp)))
        simpa [peerPart] using this
    | cons q peers =>
      have := aux (b!"peer" :: (wordsOf brk (rfc4648 p.1.toList) ++ optWords brk p.2)) _ (ih (by simp) fun x hx => hd x (by simp [hx]))
      simpa using this

/-! ### What `wg set` takes -/

theorem readCmd_append (env : WG.Env) (n : Nat) : ∀ (a b : List CStr) (ctx ctx' : Ctx), a.length ≤ n → readCmdLoop env ctx a = .ok ctx' →
    readCmdLoop env ctx (a ++ b) = readCmdLoop env ctx' b := by
  induction n with
  | zero =>
    intro a b ctx ctx' hl h
    cases a with
    | nil => simp only [readCmdLoop] at h; cases h; rfl
    | cons a t => simp at hl
  | succ n ih =>
    intro a b ctx ctx' hl h
    match a with
    | [] => simp only [readCmdLoop] at h; cases h; rfl
    | [a] =>
      simp only [readCmdLoop] at h
      split at h
      · rename_i hc
        simp only [Bool.and_eq_true, decide_eq_true_eq] at hc
        obtain ⟨rfl, hc⟩ := hc
        cases b with
        | nil => simp only [List.append_nil]; simp only [readCmdLoop, hc]; simpa using h
        | cons v b =>
          simp only [List.cons_append, List.nil_append]
          rw [readCmdLoop]
          simp only [hc, h, Res.bind]
          simp
      · cases h
    | a :: v :: rest =>
      simp only [List.length_cons] at hl
      have two : ∀ c, readCmdLoop env c rest = .ok ctx' → readCmdLoop env c (rest ++ b) = readCmdLoop env ctx' b := fun c hc => ih rest b c ctx' (by omega) hc
      have one : ∀ c, readCmdLoop env c (v :: rest) = .ok ctx' → readCmdLoop env c (v :: (rest ++ b)) = readCmdLoop env ctx' b :=
        fun c hc => ih (v :: rest) b c ctx' (by simp; omega) hc
      simp only [List.cons_append]
      generalize readCmdLoop env ctx' b = out at *
      unfold readCmdLoop at h ⊢
      simp only at h ⊢
      split at h
      · rename_i hc; rw [if_pos hc]; obtain ⟨p, h1, h2⟩ := res_bind_ok.1 h; rw [h1]; exact two _ h2
      rename_i hc; rw [if_neg hc]; clear hc
      split at h
      · rename_i hc; rw [if_pos hc]; obtain ⟨p, h1, h2⟩ := res_bind_ok.1 h; rw [h1]; exact two _ h2
      rename_i hc; rw [if_neg hc]; clear hc
      split at h
      · rename_i hc; rw [if_pos hc]; obtain ⟨p, h1, h2⟩ := res_bind_ok.1 h; rw [h1]; exact two _ h2
      rename_i hc; rw [if_neg hc]; clear hc
      split at h
      · rename_i hc; rw [if_pos hc]; obtain ⟨p, h1, h2⟩ := res_bind_ok.1 h; rw [h1]; exact two _ h2
      rename_i hc; rw [if_neg hc]; clear hc
      split at h
      · rename_i hc; rw [if_pos hc]; obtain ⟨p, h1, h2⟩ := res_bind_ok.1 h; rw [h1]; exact one _ h2
      rename_i hc; rw [if_neg hc]; clear hc
      split at h
      · rename_i hc; rw [if_pos hc]; obtain ⟨p, h1, h2⟩ := res_bind_ok.1 h; obtain ⟨q, h3, h4⟩ := res_bind_ok.1 h2; rw [h1]; simp only [Res.bind]; rw [h3]; exact two _ h4
      rename_i hc; rw [if_neg hc]; clear hc
      split at h
      · rename_i hc; rw [if_pos hc]; obtain ⟨⟨p, p'⟩, h1, h2⟩ := res_bind_ok.1 h; obtain ⟨q, h3, h4⟩ := res_bind_ok.1 h2; rw [h1]; simp only [Res.bind]; rw [h3]; exact two _ h4
      rename_i hc; rw [if_neg hc]; clear hc
      split at h
      · rename_i hc; rw [if_pos hc]; obtain ⟨p, h1, h2⟩ := res_bind_ok.1 h; obtain ⟨q, h3, h4⟩ := res_bind_ok.1 h2; rw [h1]; simp only [Res.bind]; rw [h3]; exact two _ h4
      rename_i hc; rw [if_neg hc]; clear hc
      split at h
      · rename_i hc; rw [if_pos hc]; obtain ⟨p, h1, h2⟩ := res_bind_ok.1 h; obtain ⟨q, h3, h4⟩ := res_bind_ok.1 h2; rw [h1]; simp only [Res.bind]; rw [h3]; exact two _ h4
      · cases h

theorem updPeer_nonempty {ctx c : Ctx} {f} (h : ctx.updPeer f = .ok c) : c.device.peers ≠ [] := by
  unfold Ctx.updPeer at h
  split at h
  · rename_i ps hp
    cases h
    simp only
    intro hc
    subst hc
    unfold updLast at hp
    split at hp <;> simp_all
  · cases h

/-- A peer stays. -/
theorem readCmd_peers (env : WG.Env) (n : Nat) : ∀ (a : List CStr) (ctx ctx' : Ctx), a.length ≤ n → ctx.device.peers ≠ [] → readCmdLoop env ctx a = .ok ctx' →
    ctx'.device.peers ≠ [] := by
  induction n with
  | zero =>
    intro a ctx ctx' hl hp h
    cases a with
    | nil => simp only [readCmdLoop] at h; cases h; exact hp
    | cons a t => simp at hl
  | succ n ih =>
    intro a ctx ctx' hl hp h
    match a with
    | [] => simp only [readCmdLoop] at h; cases h; exact hp
    | [a] =>
      simp only [readCmdLoop] at h
      split at h
      · exact updPeer_nonempty h
      · cases h
    | a :: v :: rest =>
      simp only [List.length_cons] at hl
      have he : ctx.device.peers.isEmpty = false := by simpa using hp
      unfold readCmdLoop at h
      simp only [he, Bool.not_false, Bool.not_true, Bool.and_false, Bool.and_true, Bool.false_eq_true, if_false, decide_eq_true_eq] at h
      split at h
      · obtain ⟨p, h1, h2⟩ := res_bind_ok.1 h
        exact ih rest _ _ (by omega) (by simp) h2
      split at h
      · obtain ⟨p, h1, h2⟩ := res_bind_ok.1 h
        exact ih (v :: rest) _ _ (by simp; omega) (updPeer_nonempty h1) h2
      iterate 4
        split at h
        · obtain ⟨p, h1, h2⟩ := res_bind_ok.1 h
          obtain ⟨q, h3, h4⟩ := res_bind_ok.1 h2
          exact ih rest _ _ (by omega) (updPeer_nonempty h3) h4
      cases h

theorem readCmd_devs (env : WG.Env) (dev : List (CStr × CStr)) (hd : ∀ o ∈ dev, o.1 ∈ devNames) (ctx ctx' : Ctx) (hp : ctx.device.peers = []) (rest : List CStr)
    (h : readCmdLoop env ctx ((dev.flatMap fun o => [o.1, o.2]) ++ rest) = .ok ctx') : ∃ c, c.device.peers = [] ∧ readCmdLoop env c rest = .ok ctx' := by
  induction dev generalizing ctx with
  | nil => exact ⟨ctx, hp, h⟩
  | cons o dev ih =>
    have ho := hd o (by simp)
    obtain ⟨n, v⟩ := o
    simp only [List.flatMap_cons, List.cons_append, List.nil_append] at h
    unfold readCmdLoop at h
    have he : ctx.device.peers.isEmpty = true := by simp [hp]
    simp only [he, Bool.not_true, Bool.not_false, Bool.and_true, decide_eq_true_eq] at h
    simp only [devNames, List.mem_cons, List.not_mem_nil, or_false] at ho
    have go := fun c hc h => ih (fun o h => hd o (by simp [h])) c hc h
    rcases ho with rfl | rfl | rfl
    · rw [if_pos rfl] at h
      obtain ⟨p, -, h2⟩ := res_bind_ok.1 h
      refine go _ ?_ h2; exact hp
    · rw [if_neg (by decide), if_pos rfl] at h
      obtain ⟨p, -, h2⟩ := res_bind_ok.1 h
      refine go _ ?_ h2; exact hp
    · rw [if_neg (by decide), if_neg (by decide), if_pos rfl] at h
      obtain ⟨p, -, h2⟩ := res_bind_ok.1 h
      refine go _ ?_ h2; exact hp

/-- Whether there is a peer yet. -/
theorem line_peers (env : WG.Env) (l : Line) (hd : ∀ o ∈ l.dev, o.1 ∈ devNames) (ctx : Ctx) (h : configReadCmd env l.args = .ok ctx) :
    (ctx.device.peers = [] ↔ l.peers = []) := by
  obtain ⟨c, hc, h⟩ := readCmd_devs env l.dev hd _ _ rfl _ h
  cases hp : l.peers with
  | nil => rw [hp] at h; simp only [List.flatMap_nil, readCmdLoop] at h; cases h; simp [hc]
  | cons p peers =>
    rw [hp] at h
    simp only [List.flatMap_cons, List.cons_append] at h
    unfold readCmdLoop at h
    have he : c.device.peers.isEmpty = true := by simp [hc]
    simp only [he, Bool.not_true, Bool.not_false, Bool.and_true, Bool.and_false, decide_eq_true_eq] at h
    rw [if_neg (by decide), if_neg (by decide), if_neg (by decide), if_pos trivial] at h
    obtain ⟨k, -, h2⟩ := res_bind_ok.1 h
    have := readCmd_peers env _ _ _ _ (Nat.le_refl _) (by simp) h2
    simp [this]

/-! ### Lists of words -/

def isBlank (c : UInt8) : Prop := c = 32 ∨ c = 9 ∨ c = 10

theorem blankWords_append (a b acc : CStr) (c : UInt8) (hc : isBlank c) : blankWords (a ++ c :: b) acc = blankWords a acc ++ blankWords b [] := by
  induction a generalizing acc with
  | nil =>
    show blankWords (c :: b) acc = _
    have hc' : c = 32 ∨ c = 9 ∨ c = 10 := hc
    simp only [blankWords, if_pos hc']
  | cons d a ih =>
    show blankWords (d :: (a ++ c :: b)) acc = _
    rw [blankWords, blankWords]
    split
    · rw [ih]; simp
    · exact ih _

theorem blankWords_word (w acc : CStr) (hw : ∀ c ∈ w, ¬ isBlank c) (hne : acc ++ w ≠ []) : blankWords w acc = [acc ++ w] := by
  induction w generalizing acc with
  | nil => rw [blankWords, if_neg (by simpa using hne)]; simp
  | cons d w ih =>
    have hd : ¬ (d = 32 ∨ d = 9 ∨ d = 10) := hw d (by simp)
    rw [blankWords, if_neg hd, ih _ (fun c hc => hw c (by simp [hc])) (by simp)]
    simp

theorem blankWords_lf (t : CStr) (n : Nat) : blankWords (t ++ List.replicate n 10) [] = blankWords t [] := by
  induction n with
  | zero => simp
  | succ n ih =>
    rw [List.replicate_succ', ← List.append_assoc, blankWords_append _ [] [] 10 (by simp [isBlank]), ih]
    simp [blankWords]

theorem substituted_lf (t : CStr) : ∃ n, t = substituted t ++ List.replicate n 10 := by
  have h : t.reverse = t.reverse.takeWhile (· = 10) ++ t.reverse.dropWhile (· = 10) := (List.takeWhile_append_dropWhile).symm
  refine ⟨(t.reverse.takeWhile (· = 10)).length, ?_⟩
  have h2 : t.reverse.takeWhile (· = 10) = List.replicate (t.reverse.takeWhile (· = 10)).length 10 := by
    rw [List.eq_replicate_iff]
    refine ⟨rfl, fun b hb => ?_⟩
    have := List.all_eq_true.1 (List.all_takeWhile (l := t.reverse) (p := fun c => decide (c = 10))) b hb; simpa using this
  have := congrArg List.reverse h
  rw [List.reverse_reverse, List.reverse_append, h2, List.reverse_replicate] at this
  simpa [substituted] using this

theorem blankWords_substituted (t : CStr) : blankWords (substituted t) [] = blankWords t [] := by
  obtain ⟨n, h⟩ := substituted_lf t
  conv => rhs; rw [h]
  rw [blankWords_lf]

theorem substituted_mem (t : CStr) : ∀ c ∈ substituted t, c ∈ t := by
  obtain ⟨n, h⟩ := substituted_lf t
  intro c hc
  rw [h]; simp [hc]

/-- Words with a line feed behind each. -/
theorem blankWords_lines (l : List CStr) (h : ∀ w ∈ l, w ≠ [] ∧ ∀ c ∈ w, ¬ isBlank c) : blankWords (l.flatMap fun w => w ++ [10]) [] = l := by
  induction l with
  | nil => rfl
  | cons w l ih =>
    obtain ⟨h1, h2⟩ := h w (by simp)
    rw [List.flatMap_cons, List.append_assoc, List.singleton_append, blankWords_append _ _ _ 10 (by simp [isBlank]), ih (fun v hv => h v (by simp [hv])),
      blankWords_word w [] h2 (by simpa using h1)]
    rfl

theorem blankWords_names (l : List CStr) (h : ∀ w ∈ l, w ≠ [] ∧ ∀ c ∈ w, ¬ isBlank c) : blankWords (namesText l) [] = l := by
  induction l with
  | nil => rfl
  | cons w l ih =>
    obtain ⟨h1, h2⟩ := h w (by simp)
    have hw := blankWords_word w [] h2 (by simpa using h1)
    cases l with
    | nil => rw [namesText, blankWords_append _ _ _ 10 (by simp [isBlank]), hw]; simp [blankWords]
    | cons v l =>
      rw [namesText, List.append_assoc, List.singleton_append, blankWords_append _ _ _ _ (by simp [isBlank]), ih (fun v hv => h v (by simp [hv])), hw]
      · rfl
      · simp

theorem namesText_mem (l : List CStr) : ∀ c ∈ namesText l, c = 32 ∨ c = 10 ∨ ∃ w ∈ l, c ∈ w := by
  intro c
  induction l with
  | nil => simp [namesText]
  | cons w l ih =>
    cases l with
    | nil => simp [namesText]; tauto
    | cons v l =>
      rw [namesText]
      · intro h
        simp only [List.append_assoc, List.mem_append, List.mem_cons, List.not_mem_nil, or_false] at h
        rcases h with h | h | h
        · exact .inr (.inr ⟨w, by simp, h⟩)
        · exact .inl h
        · rcases ih h with h | h | ⟨x, hx, h⟩
          · exact .inl h
          · exact .inr (.inl h)
          · exact .inr (.inr ⟨x, by simp [hx], h⟩)
      · simp

theorem alphabet_plain : ∀ c ∈ b64Alphabet ++ b!"=", isPlain c = true ∧ ¬ (c = 32 ∨ c = 9 ∨ c = 10) := by decide

theorem key_plain (k : Key) : rfc4648 k.toList ≠ [] ∧ ∀ c ∈ rfc4648 k.toList, isPlain c = true ∧ ¬ isBlank c := by
  obtain ⟨h1, h2, h3⟩ := Props.c02_shape k
  rw [keyToBase64_rfc] at h1 h2 h3
  have hne : rfc4648 k.toList ≠ [] := by intro hc; rw [hc] at h1; simp at h1
  refine ⟨hne, fun c hc => alphabet_plain c ?_⟩
  rw [← List.dropLast_concat_getLast hne] at hc
  rw [List.getLast?_eq_some_getLast hne] at h2
  rw [Option.some.inj h2] at hc
  rcases List.mem_append.1 hc with hc | hc
  · exact List.mem_append_left _ (h3 c hc)
  · exact List.mem_append_right _ hc

end WG.Completion
