import Verif.Model.EmbIpc
import Verif.Props.NetlinkOpen
/-! The callbacks of the embeddable library do what those of `wg` do, except that some errors have another number. -/
namespace WG.Emb
open WG Spec

/-- Same state, except for the error number, which is not EINTR (4). -/
def Near {α : Type} (s t : Nat × α) : Prop := s.1 ≠ 4 ∧ t.1 ≠ 4 ∧ s.2 = t.2

/-- Same state, except for the error number; but EINTR is EINTR. -/
def Fin {α : Type} (s t : Nat × α) : Prop := (s.1 = 4 ↔ t.1 = 4) ∧ s.2 = t.2

theorem Near.fin {α : Type} {s t : Nat × α} (h : Near s t) : Fin s t := ⟨⟨fun e => absurd e h.1, fun e => absurd e h.2.1⟩, h.2.2⟩

/-- Same result, up to the error number. -/
def RelR {σ : Type} (S : σ → σ → Prop) : Res (Int × σ) → Res (Int × σ) → Prop
  | .ok (r, s), .ok (r', s') => r = r' ∧ S s s'
  | .ok _, _ => False
  | x, y => x = y

theorem relR_ok {σ : Type} {S : σ → σ → Prop} {r : Int} {s s' : σ} (h : S s s') : RelR S (.ok (r, s)) (.ok (r, s')) := ⟨rfl, h⟩

theorem relR_refl {σ : Type} {S : σ → σ → Prop} (h : ∀ s, S s s) (x : Res (Int × σ)) : RelR S x x := by
  cases x with
  | ok v => exact ⟨rfl, h _⟩
  | _ => rfl

/-- The same first part. -/
theorem relR_same {α σ : Type} {S : σ → σ → Prop} (x : Res α) {f g : α → Res (Int × σ)} (h : ∀ a, RelR S (f a) (g a)) : RelR S (x.bind f) (x.bind g) := by
  cases x with
  | ok v => exact h v
  | _ => rfl

theorem relR_bind {σ τ : Type} {S : σ → σ → Prop} {T : τ → τ → Prop} {x y : Res (Int × σ)} (hx : RelR S x y) {f g : Int × σ → Res (Int × τ)}
    (h : ∀ r s s', S s s' → RelR T (f (r, s)) (g (r, s'))) : RelR T (x.bind f) (y.bind g) := by
  cases x with
  | ok v =>
    cases y with
    | ok w => obtain ⟨r, s⟩ := v; obtain ⟨r', s'⟩ := w; obtain ⟨rfl, hs⟩ := hx; exact h _ _ _ hs
    | _ => cases hx
  | _ => cases hx; rfl

theorem walk_rel {σ : Type} {S : σ → σ → Prop} (mem : List UInt8) (tail : Nat) {cb cb' : Nat → σ → Res (Int × σ)} (h : ∀ a s s', S s s' → RelR S (cb a s) (cb' a s')) :
    ∀ fuel a ret s s', S s s' → RelR S (walk mem tail cb fuel a ret s) (walk mem tail cb' fuel a ret s')
  | 0, _, _, _, _, _ => rfl
  | fuel + 1, a, ret, s, s', hs => by
    simp only [walk]
    refine relR_same _ fun ok => ?_
    cases ok with
    | false => exact relR_ok hs
    | true =>
      simp only [Bool.not_true, Bool.false_eq_true, if_false]
      refine relR_bind (h a s s' hs) fun r t t' ht => ?_
      by_cases hr : r ≤ 0
      · simp only [if_pos hr]; exact relR_ok ht
      · simp only [if_neg hr]; exact relR_same _ fun n => walk_rel mem tail h fuel _ _ _ _ ht

theorem parseNested_rel {σ : Type} {S : σ → σ → Prop} (mem : List UInt8) (a : Nat) {cb cb' : Nat → σ → Res (Int × σ)} (h : ∀ a s s', S s s' → RelR S (cb a s) (cb' a s'))
    (s s' : σ) (hs : S s s') : RelR S (parseNested mem a cb s) (parseNested mem a cb' s') :=
  relR_same _ fun _ => walk_rel mem _ h _ _ _ _ _ hs

theorem took_rel {σ : Type} (v : Option Nat) {e e' : Nat} (h : e ≠ 4) (h' : e' ≠ 4) (st : σ) (f : Nat → σ) : RelR Near (took v e st f) (took v e' st f) := by
  cases v with
  | none => exact ⟨rfl, show (34 : Nat) ≠ 4 by decide, show (34 : Nat) ≠ 4 by decide, rfl⟩
  | some x => exact ⟨rfl, h, h', rfl⟩

theorem allowedip_rel (mem : List UInt8) (a : Nat) (s s' : Nat × NlIP) (hs : Near s s') : RelR Near (nlParseAllowedip mem a s) (nlParseAllowedip mem a s') := by
  obtain ⟨e, d⟩ := s; obtain ⟨e', d'⟩ := s'; obtain ⟨h, h', hd⟩ := hs
  dsimp only at h h' hd
  subst hd
  unfold nlParseAllowedip
  refine relR_same _ fun t => ?_
  dsimp only
  repeat' split
  · exact relR_same _ fun v => took_rel v h h' _ _
  · refine relR_same _ fun b => ?_
    cases b with
    | some b => exact ⟨rfl, h, h', rfl⟩
    | none =>
      refine relR_same _ fun b => ?_
      cases b <;> exact ⟨rfl, h, h', rfl⟩
  · exact relR_same _ fun v => took_rel v h h' _ _
  · exact ⟨rfl, h, h', rfl⟩

theorem allowedips_rel (mem : List UInt8) (a : Nat) (s s' : Nat × NlPeer) (hs : Near s s') : RelR Near (nlParseAllowedips mem a s) (parseAllowedips mem a s') := by
  obtain ⟨e, d⟩ := s; obtain ⟨e', d'⟩ := s'; obtain ⟨h, h', hd⟩ := hs
  dsimp only at h h' hd
  subst hd
  unfold nlParseAllowedips parseAllowedips
  refine relR_bind (parseNested_rel (S := Near) mem a (allowedip_rel mem) (e, {}) (e', {}) ⟨h, h', rfl⟩) fun r t t' ht => ?_
  obtain ⟨f, x⟩ := t; obtain ⟨f', x'⟩ := t'; obtain ⟨hf, hf', hx⟩ := ht
  dsimp only at hf hf' hx
  subst hx
  dsimp only
  by_cases h0 : r = 0
  · rw [if_pos h0, if_pos h0]; exact ⟨rfl, hf, hf', rfl⟩
  · rw [if_neg h0, if_neg h0]
    by_cases h1 : (x.family = 2 ∧ x.cidr ≤ 32) ∨ (x.family = 10 ∧ x.cidr ≤ 128)
    · rw [if_pos h1, if_pos h1]; exact ⟨rfl, hf, hf', rfl⟩
    · rw [if_neg h1, if_neg h1]; exact ⟨rfl, hf, show (97 : Nat) ≠ 4 by decide, rfl⟩

theorem peer_rel (mem : List UInt8) (a : Nat) (s s' : Nat × NlPeer) (hs : Near s s') : RelR Near (nlParsePeer mem a s) (parsePeer mem a s') := by
  obtain ⟨e, d⟩ := s; obtain ⟨e', d'⟩ := s'; have hs' := hs; obtain ⟨h, h', hd⟩ := hs
  dsimp only at h h' hd
  subst hd
  unfold nlParsePeer parsePeer
  refine relR_same _ fun t => ?_
  dsimp only
  repeat' split
  · refine relR_same _ fun b => ?_
    cases b <;> exact ⟨rfl, h, h', rfl⟩
  · refine relR_same _ fun b => ?_
    cases b <;> exact ⟨rfl, h, h', rfl⟩
  · exact relR_same _ fun b => ⟨rfl, h, h', rfl⟩
  · exact relR_same _ fun v => took_rel v h h' _ _
  · refine relR_same _ fun b => ?_
    cases b <;> exact ⟨rfl, h, h', rfl⟩
  · exact relR_same _ fun v => took_rel v h h' _ _
  · exact relR_same _ fun v => took_rel v h h' _ _
  · exact parseNested_rel mem a (allowedips_rel mem) _ _ hs'
  · exact ⟨rfl, hs'⟩

theorem peers_rel (mem : List UInt8) (a : Nat) (s s' : Nat × NlDevice) (hs : Near s s') : RelR Near (nlParsePeers mem a s) (parsePeers mem a s') := by
  obtain ⟨e, d⟩ := s; obtain ⟨e', d'⟩ := s'; obtain ⟨h, h', hd⟩ := hs
  dsimp only at h h' hd
  subst hd
  unfold nlParsePeers parsePeers
  refine relR_bind (parseNested_rel (S := Near) mem a (peer_rel mem) (e, {}) (e', {}) ⟨h, h', rfl⟩) fun r t t' ht => ?_
  obtain ⟨f, x⟩ := t; obtain ⟨f', x'⟩ := t'; obtain ⟨hf, hf', hx⟩ := ht
  dsimp only at hf hf' hx
  subst hx
  dsimp only
  by_cases h0 : r = 0
  · rw [if_pos h0, if_pos h0]; exact ⟨rfl, hf, hf', rfl⟩
  · rw [if_neg h0, if_neg h0]
    by_cases h1 : x.hasPub = true
    · rw [if_pos h1, if_pos h1]; exact ⟨rfl, hf, hf', rfl⟩
    · rw [if_neg h1, if_neg h1]; exact ⟨rfl, hf, show (6 : Nat) ≠ 4 by decide, rfl⟩

theorem device_rel (mem : List UInt8) (a : Nat) (s s' : Nat × NlDevice) (hs : Near s s') : RelR Near (nlParseDevice mem a s) (parseDevice mem a s') := by
  obtain ⟨e, d⟩ := s; obtain ⟨e', d'⟩ := s'; have hs' := hs; obtain ⟨h, h', hd⟩ := hs
  dsimp only at h h' hd
  subst hd
  unfold nlParseDevice parseDevice
  refine relR_same _ fun t => ?_
  dsimp only
  repeat' split
  · exact relR_same _ fun v => took_rel v h h' _ _
  · refine relR_same _ fun ok => ?_
    cases ok with
    | false => exact ⟨rfl, show (34 : Nat) ≠ 4 by decide, show (34 : Nat) ≠ 4 by decide, rfl⟩
    | true => exact relR_same _ fun n => ⟨rfl, h, h', rfl⟩
  · refine relR_same _ fun b => ?_
    cases b <;> exact ⟨rfl, h, h', rfl⟩
  · refine relR_same _ fun b => ?_
    cases b <;> exact ⟨rfl, h, h', rfl⟩
  · exact relR_same _ fun v => took_rel v h h' _ _
  · exact relR_same _ fun v => took_rel v h h' _ _
  · exact parseNested_rel mem a (peers_rel mem) _ _ hs'
  · exact ⟨rfl, hs'⟩

theorem readDeviceCb_rel (mem : List UInt8) (h : Nat) (s s' : Nat × NlDevice) (hs : Near s s') : RelR Near (WG.readDeviceCb mem h s) (readDeviceCb mem h s') :=
  relR_same _ fun _ => walk_rel mem _ (device_rel mem) _ _ _ _ _ hs

/-- While messages follow, errno is not EINTR; at the end, both are or none. -/
def Step {α : Type} : Res (Int × Nat × α) → Res (Int × Nat × α) → Prop
  | .ok (r, s), .ok (r', s') => r = r' ∧ Fin s s' ∧ (0 < r → Near s s')
  | .ok _, _ => False
  | x, y => x = y

theorem Step.of_rel {α : Type} {x y : Res (Int × Nat × α)} (h : RelR Near x y) : Step x y := by
  cases x with
  | ok v =>
    cases y with
    | ok w => exact ⟨h.1, h.2.fin, fun _ => h.2⟩
    | _ => cases h
  | _ => cases h; rfl

theorem step_same {α β : Type} (x : Res β) {f g : β → Res (Int × Nat × α)} (h : ∀ b, Step (f b) (g b)) : Step (x.bind f) (x.bind g) := by
  cases x with
  | ok v => exact h v
  | _ => rfl

theorem ctlCb_rel (mem : List UInt8) (h n type flags : Nat) (e e' : Nat) (he : e ≠ 4) (he' : e' ≠ 4) {α : Type} (s : α)
    {k k' : Int → Nat → Res (Int × Nat × α)} (hk : ∀ r f f', 0 < r → f ≠ 4 → f' ≠ 4 → Step (k r f) (k' r f')) :
    Step ((ctlCb mem h n type flags e).bind fun (r, f) => if r ≤ 0 then .ok (r, f, s) else k r f)
      ((ctlCb mem h n type flags e').bind fun (r, f) => if r ≤ 0 then .ok (r, f, s) else k' r f) := by
  have done : ∀ (r : Int) (f f' : Nat), r ≤ 0 → (f = 4 ↔ f' = 4) → Step (α := α) (.ok (r, f, s)) (.ok (r, f', s)) := fun r f f' hr hf =>
    ⟨rfl, ⟨hf, rfl⟩, fun h => absurd h (by omega)⟩
  have stop : ∀ (f f' : Nat) (r : Int), r ≤ 0 → (f = 4 ↔ f' = 4) → Step ((Res.ok (r, f)).bind fun (r, f) => if r ≤ 0 then .ok (r, f, s) else k r f)
      ((Res.ok (r, f')).bind fun (r, f) => if r ≤ 0 then .ok (r, f, s) else k' r f) := by
    intro f f' r hr hf
    simp only [Res.bind]
    rw [if_pos hr, if_pos hr]
    exact done r f f' hr hf
  have rest : ∀ (x : Res Nat) (g : Nat → Res (Int × Nat)), (∀ v, ∃ r f, r ≤ 0 ∧ g v = .ok (r, f)) → Step ((x.bind g).bind fun (r, f) => if r ≤ 0 then .ok (r, f, s) else k r f)
      ((x.bind g).bind fun (r, f) => if r ≤ 0 then .ok (r, f, s) else k' r f) := by
    intro x g hg
    cases x with
    | ok v =>
      obtain ⟨r, f, hr, hv⟩ := hg v
      have he : (Res.ok v).bind g = .ok (r, f) := hv
      rw [he]
      exact stop f f r hr Iff.rfl
    | _ => rfl
  have hend : ∀ v : Nat, ∃ r f, r ≤ 0 ∧ (Res.ok (if toInt32 v = 0 then (0 : Int) else -1, (toInt32 v).natAbs) : Res (Int × Nat)) = .ok (r, f) := by
    intro v
    generalize toInt32 (v : Int) = w
    exact ⟨_, _, by split <;> omega, rfl⟩
  unfold ctlCb
  by_cases h2 : type = 2
  · rw [if_pos h2, if_pos h2]
    by_cases h3 : n < 16 + 20
    · rw [if_pos h3]
      exact stop 74 74 (-1) (by decide) Iff.rfl
    · rw [if_neg h3]; exact rest _ _ hend
  rw [if_neg h2, if_neg h2]
  by_cases h3 : type = 3
  · rw [if_pos h3, if_pos h3]
    by_cases h4 : flags % 4 ≥ 2 ∧ n = 16 + 4
    · rw [if_pos h4, if_pos h4]; exact rest _ _ hend
    · rw [if_neg h4, if_neg h4]
      exact stop e e' 0 (by decide) ⟨fun h => absurd h he, fun h => absurd h he'⟩
  · rw [if_neg h3, if_neg h3]
    simp only [Res.bind]
    rw [if_neg (by decide), if_neg (by decide)]
    exact hk _ _ _ (by decide) he he'

theorem cbRun_rel {α : Type} (mem : List UInt8) (seq portid : Nat) {cb cb' : Nat → Nat × α → Res (Int × Nat × α)} (hcb : ∀ h s s', Near s s' → RelR Near (cb h s) (cb' h s')) :
    ∀ fuel h len ret s s', Near s s' → Step (cbRun mem seq portid (some cb) fuel h len ret s) (cbRun mem seq portid (some cb') fuel h len ret s') := by
  intro fuel
  induction fuel with
  | zero => intros; rfl
  | succ fuel ih =>
    intro h len ret s s' hs
    have hend : ∀ r, Step (.ok (r, s)) (.ok (r, s')) := fun r => ⟨rfl, hs.fin, fun _ => hs⟩
    have hf : ∀ (e : Nat), Step (.ok (-1, e, s.2)) (.ok (-1, e, s'.2)) := fun e => ⟨rfl, ⟨Iff.rfl, hs.2.2⟩, fun h => absurd h (by decide)⟩
    simp only [cbRun, cbRunWith]
    by_cases h1 : len < 16
    · rw [if_pos h1, if_pos h1]; exact hend _
    rw [if_neg h1, if_neg h1]
    refine step_same _ fun n => ?_
    by_cases h2 : n < 16 ∨ toInt32 n > len
    · rw [if_pos h2, if_pos h2]; exact hend _
    rw [if_neg h2, if_neg h2]
    refine step_same _ fun pid => ?_
    by_cases h3 : (!idOk pid portid) = true
    · rw [if_pos h3, if_pos h3]; exact hf 3
    rw [if_neg h3, if_neg h3]
    refine step_same _ fun sq => ?_
    by_cases h4 : (!idOk sq seq) = true
    · rw [if_pos h4, if_pos h4]; exact hf 71
    rw [if_neg h4, if_neg h4]
    refine step_same _ fun flags => ?_
    by_cases h5 : flags / 16 % 2 = 1
    · rw [if_pos h5, if_pos h5]; exact hf 4
    rw [if_neg h5, if_neg h5]
    refine step_same _ fun type => ?_
    by_cases h6 : type ≥ 16
    · rw [if_pos h6, if_pos h6]
      have := hcb h s s' hs
      cases hx : cb h s with
      | ok v =>
        cases hy : cb' h s' with
        | ok w =>
          rw [hx, hy] at this
          obtain ⟨r, t⟩ := v; obtain ⟨r', t'⟩ := w; obtain ⟨rfl, ht⟩ := this
          simp only [Res.bind]
          by_cases hr : r ≤ 0
          · rw [if_pos hr, if_pos hr]; exact ⟨rfl, ht.fin, fun h => absurd h (by omega)⟩
          · rw [if_neg hr, if_neg hr]; exact ih _ _ _ _ _ ht
        | _ => rw [hx, hy] at this; cases this
      | _ =>
        rw [hx] at this
        have hy : cb' h s' = _ := this.symm
        rw [hy]; rfl
    rw [if_neg h6, if_neg h6]
    by_cases h7 : type = 0 ∨ type ≥ 5
    · rw [if_pos h7, if_pos h7]; exact ih _ _ _ _ _ hs
    rw [if_neg h7, if_neg h7]
    obtain ⟨e, x⟩ := s; obtain ⟨e', x'⟩ := s'; obtain ⟨he, he', hx⟩ := hs
    dsimp only at he he' hx
    subst hx
    exact ctlCb_rel mem h n type flags e e' he he' x (k := fun r f => cbRunWith ctlCb mem seq portid (some cb) fuel (h + align4 n) (toInt32 (len - (align4 n : Nat))) r (f, x))
      (k' := fun r f => cbRunWith ctlCb mem seq portid (some cb') fuel (h + align4 n) (toInt32 (len - (align4 n : Nat))) r (f, x))
      fun r f f' _ hf hf' => ih (h + align4 n) (toInt32 (len - (align4 n : Nat))) r (f, x) (f', x) ⟨hf, hf', rfl⟩

theorem step_bind {α : Type} {x y : Res (Int × Nat × α)} (h : Step x y) {f g : Nat × α → Res (Int × Nat × α)} (hf : ∀ s s', Near s s' → RelR Fin (f s) (g s')) :
    RelR Fin (x.bind fun (r, st) => if r > 0 then f st else .ok (r, st)) (y.bind fun (r, st) => if r > 0 then g st else .ok (r, st)) := by
  cases x with
  | ok v =>
    cases y with
    | ok w =>
      obtain ⟨r, t⟩ := v; obtain ⟨r', t'⟩ := w; obtain ⟨rfl, ht, hn⟩ := h
      simp only [Res.bind]
      by_cases hr : r > 0
      · rw [if_pos hr, if_pos hr]; exact hf _ _ (hn hr)
      · rw [if_neg hr, if_neg hr]; exact ⟨rfl, ht⟩
    | _ => cases h
  | _ => cases h; rfl

theorem recvRun_rel (seq portid : Nat) (rs : List Recv) : ∀ (s s' : Nat × NlDevice), Near s s' →
    RelR Fin (recvRun seq portid (some WG.readDeviceCb) rs s) (recvRun seq portid (some readDeviceCb) rs s') := by
  induction rs with
  | nil => intro s s' _; rw [recvRun, recvRun]; rfl
  | cons r l ih =>
    intro s s' hs
    cases r with
    | err e => rw [recvRun, recvRun]; exact ⟨rfl, Iff.rfl, hs.2.2⟩
    | msg data stale =>
      rw [recvRun, recvRun]
      by_cases h0 : data.length = 0
      · rw [if_pos h0, if_pos h0]; exact ⟨rfl, hs.fin⟩
      rw [if_neg h0, if_neg h0]
      have := cbRun_rel (data ++ stale) seq portid (readDeviceCb_rel (data ++ stale)) (data.length + 1) 0 data.length 1 s s' hs
      exact step_bind this fun t t' ht => ih t t' ht

end WG.Emb
