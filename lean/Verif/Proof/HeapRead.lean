import Verif.Proof.Heap
import Verif.Proof.Setconf
/-! The configuration reader with its heap refines the one without (C49). -/
namespace WG

/-- The device a context points to, and the context without memory. -/
def CtxRep (base : Nat → Option Cell) (m : Mem) (h : HCtx) (c : Ctx) : Prop :=
  ∃ a d ps, h.device = some a ∧ Rep base m a d ps ∧ c.device = absDev d ps ∧ h.lastPeer = lastId ps ∧ h.lastIp = (ps.getLast?.bind fun n => lastId n.2.2) ∧
    c.isPeerSection = h.isPeerSection ∧ c.isDeviceSection = h.isDeviceSection ∧ c.tick = h.tick ∧ c.warnings = h.warnings ∧ (h.isPeerSection = true → ps ≠ [])

/-- What a step with a heap may do when the step without one gives `r`: the same; or fail, with the device still there, if there was too little memory. -/
def Outcome (oom : Nat → Bool) (base : Nat → Option Cell) (dev : Ptr) (r : Res Ctx) : Res ((Bool × HCtx) × Mem) → Prop
  | .ok ((true, h), m) => h.device = dev ∧ ∃ c, r = .ok c ∧ CtxRep base m h c
  | .ok ((false, h), m) => h.device = dev ∧ (r = .fail ∨ ∃ n, oom n = true) ∧ ∃ a d ps, dev = some a ∧ Rep base m a d ps
  | .exit1 => r = .exit1
  | .running => r = .running
  | .fail => False
  | .ub => False

theorem halloc_cases (oom : Nat → Bool) (c : Cell) (m : Mem) :
    (oom m.brk = true ∧ halloc oom c m = .ok (none, ⟨m.cell, m.brk + 1⟩)) ∨ (oom m.brk = false ∧ halloc oom c m = .ok (some m.brk, ⟨upd m.cell m.brk (some c), m.brk + 1⟩)) := by
  unfold halloc
  cases oom m.brk <;> simp

namespace Rep
variable {base : Nat → Option Cell} {m : Mem} {a : Nat} {d : Device} {ps : List PeerN}

theorem later (h : Rep base m a d ps) : Rep base ⟨m.cell, m.brk + 1⟩ a d ps :=
  ⟨h.dev, h.nodup, h.rest, h.fresh, fun x hx => h.bound x (by have : m.brk + 1 ≤ x := hx; omega)⟩

theorem cast {base' : Nat → Option Cell} (h : Rep base m a d ps) (e : base = base') : Rep base' m a d ps := e ▸ h

end Rep

theorem updPeer_abs {c : Ctx} {d : Device} {init : List PeerN} {n n' : PeerN} (hc : c.device = absDev d (init ++ [n])) (G : Peer → Peer) (hG : G (absPeer n) = absPeer n') :
    c.updPeer G = .ok { c with device := absDev d (init ++ [n']) } := by
  have : updLast G c.device.peers = some (init.map absPeer ++ [absPeer n']) := by
    rw [hc]
    simp only [absDev, List.map_append, List.map_cons, List.map_nil]
    rw [updLast_snoc, hG]
  simp only [Ctx.updPeer, this]
  rw [hc]
  simp [absDev]

/-- config.c:39-75 -/
theorem hPort_spec {base : Nat → Option Cell} {m : Mem} {a : Nat} {d : Device} {ps : List PeerN} (env : Env) (v : CStr) (h : Rep base m a d ps) :
    ∃ m', hPort env (some a) v m = .ok ((parsePort env v).isSome, m') ∧
      Rep base m' a (match parsePort env v with | some p => { d with listenPort := p, flags := { d.flags with hasListenPort := true } } | none => d) ps := by
  unfold hPort parsePort
  by_cases hl : v.length = 0
  · rw [if_pos hl, if_pos hl]; exact ⟨m, rfl, h⟩
  rw [if_neg hl, if_neg hl]
  have key : ∀ (p : UInt16), ∃ m', (do
      hmod (some a) (onDev fun d => { d with listenPort := p })
      hfree (some m.brk)
      hmod (some a) (onDev fun d => { d with flags := { d.flags with hasListenPort := true } })
      pure true : HM Bool) ⟨upd m.cell m.brk (some .bytes), m.brk + 1⟩ = .ok (true, m') ∧
      Rep base m' a { d with listenPort := p, flags := { d.flags with hasListenPort := true } } ps := by
    intro p
    obtain ⟨m1, e1, r1, -⟩ := (h.alloc .bytes).onDevice (fun d => { d with listenPort := p })
    obtain ⟨e2, r2⟩ := r1.freeOther (t := m.brk) (upd_self ..)
    obtain ⟨m3, e3, r3, -⟩ := r2.onDevice (fun d => { d with flags := { d.flags with hasListenPort := true } })
    rw [hm_bind e1, hm_bind e2, hm_bind e3]
    exact ⟨m3, rfl, r3.cast (by rw [upd_upd]; exact upd_id _ _ _ h.brk_fresh.2)⟩
  cases hg : env.gaiPort v with
  | permanent => exact ⟨m, rfl, h⟩
  | transient => exact ⟨m, rfl, h⟩
  | found e =>
    have hi : hinfo m = .ok (m.brk, ⟨upd m.cell m.brk (some .bytes), m.brk + 1⟩) := rfl
    simp only
    rw [hm_bind hi]
    cases e with
    | in4 _ p => exact key p
    | in6 _ p _ _ => exact key p
    | unset =>
      obtain ⟨e2, r2⟩ := (h.alloc .bytes).freeOther (t := m.brk) (upd_self ..)
      simp only
      rw [hm_bind e2]
      exact ⟨_, rfl, r2.cast (by rw [upd_upd]; exact upd_id _ _ _ h.brk_fresh.2)⟩

theorem hSet_dev {α : Type} {base : Nat → Option Cell} {m : Mem} {a : Nat} {d : Device} {ps : List PeerN} (v : Option α) (g : α → Device → Device) (h : Rep base m a d ps) :
    ∃ m', hSet v (some a) (fun x => onDev (g x)) m = .ok (v.isSome, m') ∧ Rep base m' a (match v with | some x => g x d | none => d) ps := by
  cases v with
  | none => exact ⟨m, rfl, h⟩
  | some x =>
    obtain ⟨m1, e1, r1, -⟩ := h.onDevice (g x)
    refine ⟨m1, ?_, r1⟩
    show (hmod (some a) (onDev (g x)) >>= _) m = _
    rw [hm_bind e1]
    rfl

theorem hSet_peer {α : Type} {base : Nat → Option Cell} {m : Mem} {a : Nat} {d : Device} {init : List PeerN} {x : Nat} {p : Peer} {l : List IpN} (v : Option α) (g : α → Peer → Peer)
    (h : Rep base m a d (init ++ [(x, p, l)])) :
    ∃ m', hSet v (some x) (fun k => onPeer (g k)) m = .ok (v.isSome, m') ∧ Rep base m' a d (init ++ [(x, match v with | some k => g k p | none => p, l)]) := by
  cases v with
  | none => exact ⟨m, rfl, h⟩
  | some k =>
    obtain ⟨m1, e1, r1, -⟩ := h.onLast (g k)
    refine ⟨m1, ?_, r1⟩
    show (hmod (some x) (onPeer (g k)) >>= _) m = _
    rw [hm_bind e1]
    rfl

theorem resolveLoop_cases (env : Env) (host port : CStr) : ∀ (fuel tick : Nat) (retries : Option Nat) (t : Nat),
    (∃ e k w, resolveLoop env host port fuel tick retries t = (.ok e, k, w)) ∨ (∃ k w, resolveLoop env host port fuel tick retries t = (.fail, k, w)) ∨
    (∃ k w, resolveLoop env host port fuel tick retries t = (.running, k, w)) := by
  intro fuel
  induction fuel with
  | zero => intro tick retries t; exact .inr (.inr ⟨_, _, rfl⟩)
  | succ fuel ih =>
    intro tick retries t
    simp only [resolveLoop]
    cases env.gai tick host port with
    | found e => exact .inl ⟨_, _, _, rfl⟩
    | permanent => exact .inr (.inl ⟨_, _, rfl⟩)
    | transient =>
      simp only
      rcases retries with _ | _ | n
      · rcases ih (tick + 1) none (nextTimeout t) with ⟨e, k, w, h⟩ | ⟨k, w, h⟩ | ⟨k, w, h⟩ <;> simp [h]
      · exact .inr (.inl ⟨_, _, rfl⟩)
      · rcases ih (tick + 1) (some n) (nextTimeout t) with ⟨e, k, w, h⟩ | ⟨k, w, h⟩ | ⟨k, w, h⟩ <;> simp [h]

/-- config.c:195-279 -/
theorem hEndpoint_spec {base : Nat → Option Cell} {m : Mem} {a : Nat} {d : Device} {init : List PeerN} {x : Nat} {p : Peer} {l : List IpN} (oom : Nat → Bool) (env : Env)
    (tick : Nat) (v : CStr) (h : Rep base m a d (init ++ [(x, p, l)])) :
    match hEndpoint oom env tick (some x) v m with
    | .ok ((true, k), m') => ∃ e, (parseEndpoint env tick v).1 = .ok e ∧ (parseEndpoint env tick v).2.1 = k ∧ Rep base m' a d (init ++ [(x, { p with endpoint := e }, l)])
    | .ok ((false, _), m') => ((parseEndpoint env tick v).1 = .fail ∨ ∃ n, oom n = true) ∧ Rep base m' a d (init ++ [(x, p, l)])
    | .exit1 => (parseEndpoint env tick v).1 = .exit1
    | .running => (parseEndpoint env tick v).1 = .running
    | .fail => False
    | .ub => False := by
  unfold hEndpoint parseEndpoint
  rcases halloc_cases oom .bytes m with ⟨ho, he⟩ | ⟨ho, he⟩
  · rw [hm_bind he]
    rcases parseDnsRetries_cases env with ⟨r, hr⟩ | hr
    · rw [hr]
      simp only [if_true]
      exact ⟨.inr ⟨_, ho⟩, h.later⟩
    · rw [hr]; simp [hend]
  · rw [hm_bind he]
    have hb : upd (upd base m.brk (some .bytes)) m.brk none = base := by rw [upd_upd]; exact upd_id _ _ _ h.brk_fresh.2
    have r0 := h.alloc .bytes
    rcases parseDnsRetries_cases env with ⟨r, hr⟩ | hr
    · rw [hr]
      simp only [reduceCtorEq, if_false]
      obtain ⟨e1, r1⟩ := r0.freeOther (t := m.brk) (upd_self ..)
      cases hs : splitEndpoint v with
      | none =>
        simp only
        rw [hm_bind e1]
        exact ⟨.inl trivial, r1.cast hb⟩
      | some hp =>
        obtain ⟨host, port⟩ := hp
        simp only
        rcases resolveLoop_cases env host port (attempts env r) tick r 1000000 with ⟨e, k, w, hl⟩ | ⟨k, w, hl⟩ | ⟨k, w, hl⟩
        · rw [hl]
          simp only
          have r2 := r0.alloc .bytes
          have hi : hinfo ⟨upd m.cell m.brk (some .bytes), m.brk + 1⟩ = .ok (m.brk + 1, ⟨upd (upd m.cell m.brk (some .bytes)) (m.brk + 1) (some .bytes), m.brk + 1 + 1⟩) := rfl
          rw [hm_bind hi]
          have hb2 : upd (upd (upd (upd base m.brk (some .bytes)) (m.brk + 1) (some .bytes)) (m.brk + 1) none) m.brk none = base := by
            rw [upd_upd, upd_id _ (m.brk + 1) none, hb]
            exact r0.brk_fresh.2
          have hne : m.brk ≠ m.brk + 1 := by omega
          by_cases hu : e = .unset
          · rw [if_pos hu, hu]
            simp only
            obtain ⟨e3, r3⟩ := r2.freeOther (t := m.brk + 1) (c := .bytes) (upd_self ..)
            obtain ⟨e4, r4⟩ := r3.freeOther (t := m.brk) (c := .bytes) (by rw [upd_ne _ _ hne, upd_ne _ _ hne, upd_self])
            rw [hm_bind e3, hm_bind e4]
            exact ⟨.inl trivial, r4.cast hb2⟩
          · rw [if_neg hu]
            obtain ⟨m2, e2, r2, -⟩ := r2.onLast (fun p => { p with endpoint := e })
            obtain ⟨e3, r3⟩ := r2.freeOther (t := m.brk + 1) (c := .bytes) (upd_self ..)
            obtain ⟨e4, r4⟩ := r3.freeOther (t := m.brk) (c := .bytes) (by rw [upd_ne _ _ hne, upd_ne _ _ hne, upd_self])
            rw [hm_bind e2, hm_bind e3, hm_bind e4]
            refine ⟨e, ?_, ?_, r4.cast hb2⟩ <;> cases e <;> simp_all
        · rw [hl]
          simp only
          rw [hm_bind e1]
          exact ⟨.inl trivial, r1.cast hb⟩
        · rw [hl]
          simp [hend]
    · rw [hr]; simp [hend]

/-- What is left after freeing. -/
def dropPtr (f : Nat → Option Cell) : Ptr → Nat → Option Cell
  | some s => upd f s none
  | none => f

/-- config.c:356-413 -/
theorem hEntries_spec (oom : Nat → Bool) (env : Env) : ∀ (es : List CStr) {base : Nat → Option Cell} {m : Mem} {a : Nat} {d : Device} {init : List PeerN} {x t : Nat} {p : Peer} {l : List IpN}
    (ws : List Warning) (_ : Rep base m a d (init ++ [(x, p, l)])) (_ : base t = some .bytes),
    match hEntries oom env (some t) (some x) es (lastId l) ws m with
    | .ok ((true, last, ws'), m') => ∃ l2 ws2, parseEntries env es = some (l2.map (·.2), ws2) ∧ ws' = ws ++ ws2 ∧ last = lastId (l ++ l2) ∧
        Rep (upd base t none) m' a d (init ++ [(x, p, l ++ l2)])
    | .ok ((false, _, _), m') => (parseEntries env es = none ∨ ∃ n, oom n = true) ∧ ∃ l', Rep (upd base t none) m' a d (init ++ [(x, p, l')])
    | _ => False := by
  intro es
  induction es with
  | nil =>
    intro base m a d init x t p l ws h ht
    obtain ⟨e1, r1⟩ := h.freeOther ht
    rw [hEntries, hm_bind e1]
    exact ⟨[], [], rfl, by simp, by simp, by simpa using r1⟩
  | cons e es ih =>
    intro base m a d init x t p l ws h ht
    rw [hEntries]
    -- after the copy of the entry
    have main : ∀ (sv : Ptr) (base1 : Nat → Option Cell) (m1 : Mem), Rep base1 m1 a d (init ++ [(x, p, l)]) → base1 t = some .bytes → 
        (∀ (m2 : Mem) (b2 : Nat → Option Cell) (ps2 : List PeerN), Rep b2 m2 a d ps2 → (∀ s, sv = some s → b2 s = some .bytes) →
          ∃ m3, hfree sv m2 = .ok ((), m3) ∧ Rep (dropPtr b2 sv) m3 a d ps2) →
        (∀ s, sv = some s → base1 s = some .bytes ∧ s ≠ t ∧ base s = none) → dropPtr base1 sv = base →
        match (do
          let new ← halloc oom (.ip ⟨.v4 #v[0, 0, 0, 0], 0⟩ none)
          if new = none then do
            hfree sv
            hfree (some t)
            pure (false, lastId l, ws)
          else match parseIp env (strsepOne c!"/" e).1 with
            | none => do
              hfree new
              hfree sv
              hfree (some t)
              pure (false, lastId l, ws)
            | some addr =>
              match cidrOf env (strsepOne c!"/" e).2 addr with
              | none => do
                hfree new
                hfree (some t)
                hfree sv
                pure (false, lastId l, ws)
              | some cidr => do
                let a : AllowedIP := { addr := addr, cidr := UInt8.ofNat cidr }
                hmod new (setIp a)
                hLinkIp (some x) (lastId l) new
                hfree sv
                hEntries oom env (some t) (some x) es new (ws ++ if validateNetmask a then [] else [{ ip := (strsepOne c!"/" e).1, mask := (strsepOne c!"/" e).2 }]) : HM (Bool × Ptr × List Warning)) m1 with
        | .ok ((true, last, ws'), m') => ∃ l2 ws2, parseEntries env (e :: es) = some (l2.map (·.2), ws2) ∧ ws' = ws ++ ws2 ∧ last = lastId (l ++ l2) ∧
            Rep (upd base t none) m' a d (init ++ [(x, p, l ++ l2)])
        | .ok ((false, _, _), m') => (parseEntries env (e :: es) = none ∨ ∃ n, oom n = true) ∧ ∃ l', Rep (upd base t none) m' a d (init ++ [(x, p, l')])
        | _ => False := by
      intro sv base1 m1 h1 ht1 hsv hsv2 hb
      rcases halloc_cases oom (.ip ⟨.v4 #v[0, 0, 0, 0], 0⟩ none) m1 with ⟨ho, he⟩ | ⟨ho, he⟩
      · rw [hm_bind he]
        simp only [if_true]
        obtain ⟨m3, e3, r3⟩ := hsv _ _ _ h1.later (fun s hs => (hsv2 s hs).1)
        rw [hb] at r3
        obtain ⟨e4, r4⟩ := r3.freeOther ht
        rw [hm_bind e3, hm_bind e4]
        exact ⟨.inr ⟨_, ho⟩, l, r4⟩
      · rw [hm_bind he]
        simp only [reduceCtorEq, if_false]
        have r1 := h1.alloc (.ip ⟨.v4 #v[0, 0, 0, 0], 0⟩ none)
        have hb1 : ∀ c, upd (upd base1 m1.brk (some c)) m1.brk none = base1 := fun c => by rw [upd_upd]; exact upd_id _ _ _ h1.brk_fresh.2
        have htn : t ≠ m1.brk := by
          rintro rfl
          rw [h1.brk_fresh.2] at ht1; cases ht1
        have hsn : ∀ s, sv = some s → s ≠ m1.brk := by
          rintro s hs rfl
          have := (hsv2 _ hs).1
          rw [h1.brk_fresh.2] at this; cases this
        cases hip : parseIp env (strsepOne c!"/" e).1 with
        | none =>
          simp only
          obtain ⟨e2, r2⟩ := r1.freeOther (t := m1.brk) (upd_self ..)
          rw [hb1] at r2
          obtain ⟨m3, e3, r3⟩ := hsv _ _ _ r2 (fun s hs => (hsv2 s hs).1)
          rw [hb] at r3
          obtain ⟨e4, r4⟩ := r3.freeOther ht
          rw [hm_bind e2, hm_bind e3, hm_bind e4]
          exact ⟨.inl (by simp [parseEntries, parseAllowedip, hip]), l, r4⟩
        | some addr =>
          simp only
          cases hci : cidrOf env (strsepOne c!"/" e).2 addr with
          | none =>
            simp only
            obtain ⟨e2, r2⟩ := r1.freeOther (t := m1.brk) (upd_self ..)
            rw [hb1] at r2
            obtain ⟨e3, r3⟩ := r2.freeOther ht1
            obtain ⟨m4, e4, r4⟩ := hsv _ _ _ r3 (fun s hs => by rw [upd_ne _ _ (hsv2 s hs).2.1]; exact (hsv2 s hs).1)
            have hb2 : dropPtr (upd base1 t none) sv = upd base t none := by
              rw [← hb]
              cases sv with
              | none => rfl
              | some s => exact upd_comm _ _ _ (Ne.symm (hsv2 s rfl).2.1)
            rw [hb2] at r4
            rw [hm_bind e2, hm_bind e3, hm_bind e4]
            exact ⟨.inl (by simp [parseEntries, parseAllowedip, hip, hci]), l, r4⟩
          | some cidr =>
            simp only
            obtain ⟨e2, r2⟩ := r1.modOther (t := m1.brk) (upd_self ..) (f := setIp { addr := addr, cidr := UInt8.ofNat cidr }) (c' := .ip { addr := addr, cidr := UInt8.ofNat cidr } none) rfl
            rw [upd_upd] at r2
            obtain ⟨m3, e3, -, r3⟩ := r2.linkIp (t := m1.brk) (upd_self ..)
            rw [hb1] at r3
            obtain ⟨m4, e4, r4⟩ := hsv _ _ _ r3 (fun s hs => (hsv2 s hs).1)
            rw [hb] at r4
            rw [hm_bind e2, hm_bind e3, hm_bind e4]
            have hlast : (some m1.brk : Ptr) = lastId (l ++ [(m1.brk, ({ addr := addr, cidr := UInt8.ofNat cidr } : AllowedIP))]) := by simp [lastId]
            rw [hlast]
            have := ih (ws ++ if validateNetmask { addr := addr, cidr := UInt8.ofNat cidr } then [] else [{ ip := (strsepOne c!"/" e).1, mask := (strsepOne c!"/" e).2 }]) r4 ht
            have hpa : parseAllowedip env e = some ({ addr := addr, cidr := UInt8.ofNat cidr },
                if validateNetmask { addr := addr, cidr := UInt8.ofNat cidr } then [] else [{ ip := (strsepOne c!"/" e).1, mask := (strsepOne c!"/" e).2 }]) := by
              simp [parseAllowedip, hip, hci]
            revert this
            cases hEntries oom env (some t) (some x) es (lastId (l ++ [(m1.brk, ({ addr := addr, cidr := UInt8.ofNat cidr } : AllowedIP))])) _ m4 with
            | ok r =>
              obtain ⟨⟨b, last, ws'⟩, m'⟩ := r
              cases b with
              | true =>
                rintro ⟨l2, ws2, hp, hw, hl, r5⟩
                refine ⟨(m1.brk, { addr := addr, cidr := UInt8.ofNat cidr }) :: l2, (if validateNetmask { addr := addr, cidr := UInt8.ofNat cidr } then [] else [{ ip := (strsepOne c!"/" e).1, mask := (strsepOne c!"/" e).2 }]) ++ ws2, ?_, by rw [hw, List.append_assoc], by rw [hl]; simp, by simpa using r5⟩
                rw [parseEntries, hpa]
                simp only [hp, List.map_cons]
              | false =>
                rintro ⟨hp, l', r5⟩
                refine ⟨hp.imp_left fun hp => ?_, l', r5⟩
                rw [parseEntries, hpa]
                simp only [hp]
            | _ => exact id
    rcases halloc_cases oom .bytes m with ⟨ho, he⟩ | ⟨ho, he⟩
    · rw [hm_bind he]
      exact main none base _ h.later ht (fun m2 b2 ps2 r _ => ⟨m2, rfl, r⟩) (by simp) rfl
    · rw [hm_bind he]
      have htm : t ≠ m.brk := by
        rintro rfl
        rw [h.brk_fresh.2] at ht; cases ht
      refine main (some m.brk) _ _ (h.alloc .bytes) (by rw [upd_ne _ _ htm]; exact ht) ?_ ?_ (by rw [dropPtr, upd_upd]; exact upd_id _ _ _ h.brk_fresh.2)
      · intro m2 b2 ps2 r hs
        obtain ⟨e1, r1⟩ := r.freeOther (hs _ rfl)
        exact ⟨_, e1, r1⟩
      · intro s hs
        cases hs
        exact ⟨upd_self .., htm.symm, h.brk_fresh.2⟩

/-- config.c:340-413 -/
theorem hAllowedips_spec {base : Nat → Option Cell} {m : Mem} {a : Nat} {d : Device} {init : List PeerN} {x : Nat} {p : Peer} {l : List IpN} (oom : Nat → Bool) (env : Env)
    (v : CStr) (h : Rep base m a d (init ++ [(x, p, l)])) :
    match hAllowedips oom env (some x) (lastId l) v m with
    | .ok ((true, last, ws), m') => ∃ l2, parseAllowedips env v = some (l2.map (·.2), ws) ∧ last = lastId (l ++ l2) ∧
        Rep base m' a d (init ++ [(x, { p with flags := { p.flags with replaceAllowedIPs := true } }, l ++ l2)])
    | .ok ((false, _, _), m') => (parseAllowedips env v = none ∨ ∃ n, oom n = true) ∧ ∃ p' l', Rep base m' a d (init ++ [(x, p', l')])
    | _ => False := by
  unfold hAllowedips parseAllowedips
  rcases halloc_cases oom .bytes m with ⟨ho, he⟩ | ⟨ho, he⟩
  · rw [hm_bind he]
    simp only [if_true]
    exact ⟨.inr ⟨_, ho⟩, p, l, h.later⟩
  · rw [hm_bind he]
    simp only [reduceCtorEq, if_false]
    have hb : upd (upd base m.brk (some .bytes)) m.brk none = base := by rw [upd_upd]; exact upd_id _ _ _ h.brk_fresh.2
    obtain ⟨m1, e1, r1, -⟩ := (h.alloc .bytes).onLast (fun p => { p with flags := { p.flags with replaceAllowedIPs := true } })
    rw [hm_bind e1]
    by_cases hl : v.length = 0
    · rw [if_pos hl, if_pos hl]
      obtain ⟨e2, r2⟩ := r1.freeOther (t := m.brk) (upd_self ..)
      rw [hm_bind e2]
      exact ⟨[], rfl, by simp, by rw [List.append_nil]; exact r2.cast hb⟩
    · rw [if_neg hl, if_neg hl]
      have := hEntries_spec oom env (strsepAll c!"," v) [] r1 (t := m.brk) (upd_self ..)
      revert this
      rw [hm_bind_def]
      cases hEntries oom env (some m.brk) (some x) (strsepAll c!"," v) (lastId l) [] m1 with
      | ok r =>
        obtain ⟨⟨b, last, ws'⟩, m'⟩ := r
        cases b with
        | true =>
          rintro ⟨l2, ws2, hp, hw, hl, r5⟩
          rw [List.nil_append] at hw
          exact ⟨l2, by rw [hw]; exact hp, hl, r5.cast hb⟩
        | false =>
          rintro ⟨hp, l', r5⟩
          exact ⟨hp, _, l', r5.cast hb⟩
      | _ => exact id

/-- config.c:425-436, 592-603 -/
theorem hNewPeer_spec {base : Nat → Option Cell} {m : Mem} {a : Nat} {d : Device} {ps : List PeerN} (oom : Nat → Bool) (h : Rep base m a d ps) :
    (∃ m', hNewPeer oom (some a) (lastId ps) m = .ok (none, m') ∧ (∃ n, oom n = true) ∧ Rep base m' a d ps) ∨
    ∃ t m', hNewPeer oom (some a) (lastId ps) m = .ok (some t, m') ∧ Rep base m' a d (ps ++ [((t, ({} : Peer), []) : PeerN)]) := by
  unfold hNewPeer
  rcases halloc_cases oom (.peer {} none none) m with ⟨ho, he⟩ | ⟨ho, he⟩
  · rw [hm_bind he]
    exact .inl ⟨_, rfl, ⟨_, ho⟩, h.later⟩
  · rw [hm_bind he]
    simp only [reduceCtorEq, if_false]
    obtain ⟨m2, e2, -, r2⟩ := (h.alloc (.peer {} none none)).linkPeer (t := m.brk) (upd_self ..)
    rw [hm_bind e2]
    exact .inr ⟨_, _, rfl, r2.cast (by rw [upd_upd]; exact upd_id _ _ _ h.brk_fresh.2)⟩

section Ops
variable {oom : Nat → Bool} {base : Nat → Option Cell} {m : Mem} {h : HCtx} {c : Ctx}

theorem dev_op {α : Type} {a : Nat} {d : Device} {ps : List PeerN} (hd : h.device = some a) (hc : c.device = absDev d ps)
    (hrest : h.lastPeer = lastId ps ∧ h.lastIp = (ps.getLast?.bind fun n => lastId n.2.2) ∧
      c.isPeerSection = h.isPeerSection ∧ c.isDeviceSection = h.isDeviceSection ∧ c.tick = h.tick ∧ c.warnings = h.warnings ∧ (h.isPeerSection = true → ps ≠ []))
    (x : HM Bool) (v : Option α) (g : α → Device → Device) (hx : ∃ m', x m = .ok (v.isSome, m') ∧ Rep base m' a (match v with | some k => g k d | none => d) ps)
    (hg : ∀ k, g k (absDev d ps) = absDev (g k d) ps) :
    Outcome oom base h.device ((Res.ofOption v).bind fun k => .ok { c with device := g k c.device }) ((do let r ← x; pure (r, h) : HM (Bool × HCtx)) m) := by
  obtain ⟨m', e, r⟩ := hx
  rw [hm_bind e]
  cases v with
  | none => exact ⟨rfl, .inl rfl, a, _, _, hd, r⟩
  | some k => exact ⟨rfl, _, rfl, a, _, _, hd, r, by simp only [hc]; exact hg k, hrest⟩

theorem peer_op {α : Type} {a : Nat} {d : Device} {init : List PeerN} {y : Nat} {p : Peer} {l : List IpN} (hd : h.device = some a) (hr : Rep base m a d (init ++ [(y, p, l)]))
    (hc : c.device = absDev d (init ++ [(y, p, l)]))
    (hrest : h.lastPeer = lastId (init ++ [(y, p, l)]) ∧ h.lastIp = ((init ++ [(y, p, l)]).getLast?.bind fun n => lastId n.2.2) ∧
      c.isPeerSection = h.isPeerSection ∧ c.isDeviceSection = h.isDeviceSection ∧ c.tick = h.tick ∧ c.warnings = h.warnings ∧ (h.isPeerSection = true → init ++ [(y, p, l)] ≠ []))
    (v : Option α) (g : α → Peer → Peer) (hg : ∀ k, g k (absPeer (y, p, l)) = absPeer (y, g k p, l)) :
    Outcome oom base h.device ((Res.ofOption v).bind fun k => c.updPeer (g k)) ((do let r ← hSet v h.lastPeer fun k => onPeer (g k); pure (r, h) : HM (Bool × HCtx)) m) := by
  have hy : h.lastPeer = some y := by rw [hrest.1]; simp [lastId]
  rw [hy]
  obtain ⟨m', e, r⟩ := hSet_peer v g hr
  rw [hm_bind e]
  cases v with
  | none => exact ⟨rfl, .inl rfl, a, _, _, hd, r⟩
  | some k =>
    refine ⟨rfl, _, updPeer_abs hc (g k) (hg k), a, _, _, hd, r, rfl, ?_, ?_, hrest.2.2.1, hrest.2.2.2.1, hrest.2.2.2.2.1, hrest.2.2.2.2.2.1, by simp⟩
    · rw [hy]; simp [lastId]
    · rw [hrest.2.1]; simp

theorem endpoint_op {a : Nat} {d : Device} {init : List PeerN} {y : Nat} {p : Peer} {l : List IpN} (env : Env) (v : CStr) (hd : h.device = some a)
    (hr : Rep base m a d (init ++ [(y, p, l)])) (hc : c.device = absDev d (init ++ [(y, p, l)]))
    (hrest : h.lastPeer = lastId (init ++ [(y, p, l)]) ∧ h.lastIp = ((init ++ [(y, p, l)]).getLast?.bind fun n => lastId n.2.2) ∧
      c.isPeerSection = h.isPeerSection ∧ c.isDeviceSection = h.isDeviceSection ∧ c.tick = h.tick ∧ c.warnings = h.warnings ∧ (h.isPeerSection = true → init ++ [(y, p, l)] ≠ [])) :
    Outcome oom base h.device ((parseEndpoint env c.tick v).1.bind fun e =>
        { c with tick := (parseEndpoint env c.tick v).2.1 }.updPeer fun p => { p with endpoint := e })
      ((do let (r, k) ← hEndpoint oom env h.tick h.lastPeer v; pure (r, { h with tick := k }) : HM (Bool × HCtx)) m) := by
  have hy : h.lastPeer = some y := by rw [hrest.1]; simp [lastId]
  rw [hy, hrest.2.2.2.2.1]
  have := hEndpoint_spec oom env h.tick v hr
  revert this
  rw [hm_bind_def]
  cases hEndpoint oom env h.tick (some y) v m with
  | ok r =>
    obtain ⟨⟨b, k⟩, m'⟩ := r
    cases b with
    | true =>
      rintro ⟨e, h1, h2, r1⟩
      rw [h1, h2]
      refine ⟨rfl, _, updPeer_abs (c := { c with tick := k }) hc (fun p => { p with endpoint := e }) rfl, a, _, _, hd, r1, rfl, ?_, ?_, hrest.2.2.1, hrest.2.2.2.1, rfl, hrest.2.2.2.2.2.1, by simp⟩
      · simp [lastId]
      · simp only [hrest.2.1]; simp
    | false =>
      rintro ⟨h1, r1⟩
      exact ⟨rfl, h1.imp_left fun h1 => by rw [h1], a, _, _, hd, r1⟩
  | exit1 => intro h1; simp only [h1, Outcome]
  | running => intro h1; simp only [h1, Outcome]
  | ub => exact id
  | fail => exact id

theorem ips_op {a : Nat} {d : Device} {init : List PeerN} {y : Nat} {p : Peer} {l : List IpN} (env : Env) (v : CStr) (hd : h.device = some a)
    (hr : Rep base m a d (init ++ [(y, p, l)])) (hc : c.device = absDev d (init ++ [(y, p, l)]))
    (hrest : h.lastPeer = lastId (init ++ [(y, p, l)]) ∧ h.lastIp = ((init ++ [(y, p, l)]).getLast?.bind fun n => lastId n.2.2) ∧
      c.isPeerSection = h.isPeerSection ∧ c.isDeviceSection = h.isDeviceSection ∧ c.tick = h.tick ∧ c.warnings = h.warnings ∧ (h.isPeerSection = true → init ++ [(y, p, l)] ≠ [])) :
    Outcome oom base h.device ((Res.ofOption (parseAllowedips env v)).bind fun (as, ws) =>
        { c with warnings := c.warnings ++ ws }.updPeer fun p =>
          { p with allowedIPs := p.allowedIPs ++ as, flags := { p.flags with replaceAllowedIPs := true } })
      ((do let (r, l, ws) ← hAllowedips oom env h.lastPeer h.lastIp v; pure (r, { h with lastIp := l, warnings := h.warnings ++ ws }) : HM (Bool × HCtx)) m) := by
  have hy : h.lastPeer = some y := by rw [hrest.1]; simp [lastId]
  have hi : h.lastIp = lastId l := by rw [hrest.2.1]; simp
  rw [hy, hi]
  have := hAllowedips_spec oom env v hr
  revert this
  rw [hm_bind_def]
  cases hAllowedips oom env (some y) (lastId l) v m with
  | ok r =>
    obtain ⟨⟨b, last, ws⟩, m'⟩ := r
    cases b with
    | true =>
      rintro ⟨l2, h1, h2, r1⟩
      rw [h1]
      refine ⟨rfl, _, updPeer_abs (c := { c with warnings := c.warnings ++ ws }) (n' := (y, { p with flags := { p.flags with replaceAllowedIPs := true } }, l ++ l2)) hc _ ?_,
        a, _, _, hd, r1, rfl, ?_, ?_, hrest.2.2.1, hrest.2.2.2.1, hrest.2.2.2.2.1, ?_, by simp⟩
      · simp [absPeer]
      · simp [lastId]
      · simp only [h2]; simp
      · simp only [hrest.2.2.2.2.2.1]
    | false =>
      rintro ⟨h1, p', l', r1⟩
      exact ⟨rfl, h1.imp_left fun h1 => by rw [h1]; rfl, a, _, _, hd, r1⟩
  | exit1 => exact False.elim
  | running => exact False.elim
  | ub => exact id
  | fail => exact id

/-- config.c:415-488 -/
theorem hProcessLine_spec (oom : Nat → Bool) (env : Env) (line : CStr) (hcr : CtxRep base m h c) : Outcome oom base h.device (processLine env c line) (hProcessLine oom env h line m) := by
  obtain ⟨a, d, ps, hd, hr, hc, hrest⟩ := hcr
  unfold processLine hProcessLine
  have hfail : Outcome oom base h.device .fail ((pure (false, h) : HM (Bool × HCtx)) m) := ⟨rfl, .inl rfl, a, d, ps, hd, hr⟩
  by_cases h1 : strcaseeq line b!"[Interface]" = true
  · rw [if_pos h1, if_pos h1]
    exact ⟨rfl, _, rfl, a, d, ps, hd, hr, hc, hrest.1, hrest.2.1, rfl, rfl, hrest.2.2.2.2.1, hrest.2.2.2.2.2.1, by simp⟩
  rw [if_neg h1, if_neg h1]
  by_cases h2 : strcaseeq line b!"[Peer]" = true
  · rw [if_pos h2, if_pos h2, hd, hrest.1]
    rcases hNewPeer_spec oom hr with ⟨m1, e1, ho, r1⟩ | ⟨t, m1, e1, r1⟩
    · rw [hm_bind e1]
      exact ⟨hd, .inr ho, a, _, _, rfl, r1⟩
    · rw [hm_bind e1]
      simp only [reduceCtorEq, if_false]
      obtain ⟨m2, e2, r2, -⟩ := r1.onLast (fun p => { p with flags := { p.flags with replaceAllowedIPs := true } })
      rw [hm_bind e2]
      refine ⟨rfl, _, rfl, a, _, _, rfl, r2, ?_, ?_, ?_, rfl, rfl, hrest.2.2.2.2.1, hrest.2.2.2.2.2.1, by simp⟩
      · simp [hc, absDev, absPeer]
      · simp [lastId]
      · simp [lastId]
  rw [if_neg h2, if_neg h2]
  by_cases h3 : h.isDeviceSection = true
  · rw [if_pos h3, if_pos (by rw [hrest.2.2.2.1, h3])]
    cases getValue line b!"ListenPort=" with
    | some v => exact dev_op hd hc hrest _ (parsePort env v) (fun p d => { d with listenPort := p, flags := { d.flags with hasListenPort := true } }) (by rw [hd]; obtain ⟨m', e, r⟩ := hPort_spec env v hr; refine ⟨m', e, ?_⟩; revert r; cases parsePort env v <;> exact id) (fun _ => rfl)
    | none =>
      simp only
      cases getValue line b!"FwMark=" with
      | some v => exact dev_op hd hc hrest _ (parseFwmark env v) (fun p d => { d with fwmark := p, flags := { d.flags with hasFwmark := true } }) (by rw [hd]; exact hSet_dev _ _ hr) (fun _ => rfl)
      | none =>
        simp only
        cases getValue line b!"PrivateKey=" with
        | some v => exact dev_op hd hc hrest _ (parseKey env v) (fun p d => { d with privateKey := p, flags := { d.flags with hasPrivateKey := true } }) (by rw [hd]; exact hSet_dev _ _ hr) (fun _ => rfl)
        | none => exact hfail
  rw [if_neg h3, if_neg (by rw [hrest.2.2.2.1]; exact h3)]
  by_cases h4 : h.isPeerSection = true
  · rw [if_pos h4, if_pos (by rw [hrest.2.2.1, h4])]
    obtain ⟨init, ⟨y, p, l⟩, rfl⟩ : ∃ init n, ps = init ++ [n] := by
      rcases List.eq_nil_or_concat ps with rfl | ⟨init, n, rfl⟩
      · exact absurd rfl (hrest.2.2.2.2.2.2 h4)
      · exact ⟨init, n, by rw [List.concat_eq_append]⟩
    cases getValue line b!"Endpoint=" with
    | some v => exact endpoint_op env v hd hr hc hrest
    | none =>
      simp only
      cases getValue line b!"PublicKey=" with
      | some v => exact peer_op hd hr hc hrest (parseKey env v) (fun k p => { p with publicKey := k, flags := { p.flags with hasPublicKey := true } }) (fun _ => rfl)
      | none =>
        simp only
        cases getValue line b!"AllowedIPs=" with
        | some v => exact ips_op env v hd hr hc hrest
        | none =>
          simp only
          cases getValue line b!"PersistentKeepalive=" with
          | some v => exact peer_op hd hr hc hrest (parseKeepalive env v) (fun k p => { p with keepalive := k, flags := { p.flags with hasKeepalive := true } }) (fun _ => rfl)
          | none =>
            simp only
            cases getValue line b!"PresharedKey=" with
            | some v => exact peer_op hd hr hc hrest (parseKey env v) (fun k p => { p with presharedKey := k, flags := { p.flags with hasPresharedKey := true } }) (fun _ => rfl)
            | none => exact hfail
  rw [if_neg h4, if_neg (by rw [hrest.2.2.1]; exact h4)]
  exact hfail

end Ops

/-- After a failure the device is gone. -/
def Outcome' (oom : Nat → Bool) (base : Nat → Option Cell) (dev : Ptr) (r : Res Ctx) : Res ((Bool × HCtx) × Mem) → Prop
  | .ok ((true, h), m) => h.device = dev ∧ ∃ c, r = .ok c ∧ CtxRep base m h c
  | .ok ((false, _), m) => (r = .fail ∨ ∃ n, oom n = true) ∧ m.cell = base ∧ ∀ x, m.brk ≤ x → m.cell x = none
  | .exit1 => r = .exit1
  | .running => r = .running
  | .fail => False
  | .ub => False

theorem Rep.free_bound {base : Nat → Option Cell} {m : Mem} {a : Nat} {d : Device} {ps : List PeerN} (h : Rep base m a d ps) : ∀ x, m.brk ≤ x → base x = none := by
  intro x hx
  rw [← h.rest x (fun e => by have := h.mem_lt_brk e; omega)]
  exact h.bound x hx

/-- config.c:490-527 -/
theorem hReadLine_spec (oom : Nat → Bool) (env : Env) (input : CStr) {base : Nat → Option Cell} {m : Mem} {h : HCtx} {c : Ctx} (hcr : CtxRep base m h c) :
    Outcome' oom base h.device (configReadLine env c input) (hReadLine oom env h input m) := by
  unfold hReadLine configReadLine
  obtain ⟨a, d, ps, hd, hr, hc, hrest⟩ := hcr
  rcases halloc_cases oom .bytes m with ⟨ho, he⟩ | ⟨ho, he⟩
  · rw [hm_bind he]
    simp only [if_true]
    have hf := hr.later.free
    rw [hd, hm_bind hf]
    exact ⟨.inr ⟨_, ho⟩, rfl, hr.later.free_bound⟩
  · rw [hm_bind he]
    simp only [reduceCtorEq, if_false]
    have hb : upd (upd base m.brk (some .bytes)) m.brk none = base := by rw [upd_upd]; exact upd_id _ _ _ hr.brk_fresh.2
    have r0 := hr.alloc .bytes
    have hcr0 : CtxRep (upd base m.brk (some .bytes)) ⟨upd m.cell m.brk (some .bytes), m.brk + 1⟩ h c := ⟨a, d, ps, hd, r0, hc, hrest⟩
    have key : Outcome oom (upd base m.brk (some .bytes)) h.device (if (cleanLine env input).length = 0 then .ok c else processLine env c (cleanLine env input))
        ((if (cleanLine env input).length = 0 then pure (true, h) else hProcessLine oom env h (cleanLine env input) : HM (Bool × HCtx)) ⟨upd m.cell m.brk (some .bytes), m.brk + 1⟩) := by
      by_cases hl : (cleanLine env input).length = 0
      · rw [if_pos hl, if_pos hl]
        exact ⟨rfl, c, rfl, hcr0⟩
      · rw [if_neg hl, if_neg hl]
        exact hProcessLine_spec oom env _ hcr0
    revert key
    rw [hm_bind_def]
    cases (if (cleanLine env input).length = 0 then pure (true, h) else hProcessLine oom env h (cleanLine env input) : HM (Bool × HCtx)) ⟨upd m.cell m.brk (some .bytes), m.brk + 1⟩ with
    | ok r =>
      obtain ⟨⟨b, h'⟩, m'⟩ := r
      cases b with
      | true =>
        rintro ⟨hdev, c', hc', a', d', ps', hd', r1, hrest'⟩
        obtain ⟨e2, r2⟩ := r1.freeOther (t := m.brk) (upd_self ..)
        rw [okb, hm_bind e2]
        exact ⟨hdev, c', hc', a', d', ps', hd', r2.cast hb, hrest'⟩
      | false =>
        rintro ⟨hdev, hc', a', d', ps', hd', r1⟩
        obtain ⟨e2, r2⟩ := r1.freeOther (t := m.brk) (upd_self ..)
        rw [okb, hm_bind e2]
        simp only [Bool.false_eq_true, if_false]
        have r3 := r2.cast hb
        rw [hdev, hd', hm_bind r3.free]
        exact ⟨hc', rfl, r3.free_bound⟩
    | _ => exact id

/-- setconf.c:124-129 -/
theorem hReadLines_spec (oom : Nat → Bool) (env : Env) : ∀ (ls : List CStr) {base : Nat → Option Cell} {m : Mem} {h : HCtx} {c : Ctx} (_ : CtxRep base m h c),
    Outcome' oom base h.device (readLines env c ls) (hReadLines oom env h ls m) := by
  intro ls
  induction ls with
  | nil =>
    intro base m h c hcr
    exact ⟨rfl, c, rfl, hcr⟩
  | cons l ls ih =>
    intro base m h c hcr
    have := hReadLine_spec oom env l hcr
    revert this
    rw [hReadLines, readLines, hm_bind_def]
    cases hReadLine oom env h l m with
    | ok r =>
      obtain ⟨⟨b, h'⟩, m'⟩ := r
      cases b with
      | true =>
        rintro ⟨hdev, c', hc', hcr'⟩
        rw [hc']
        have := ih hcr'
        rw [hdev] at this
        exact this
      | false =>
        rintro ⟨hc', h2, h3⟩
        exact ⟨hc'.imp_left fun e => by rw [e], h2, h3⟩
    | exit1 => intro h1; simp only [Outcome'] at h1 ⊢; rw [h1]
    | running => intro h1; simp only [Outcome'] at h1 ⊢; rw [h1]
    | _ => exact id

end WG
