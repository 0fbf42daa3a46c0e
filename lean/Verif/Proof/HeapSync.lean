import Verif.Proof.HeapCmd
/-! `wg setconf`, `addconf`, `syncconf` with their heap (C49). -/
namespace WG

/-- config.c:542-556 -/
theorem hReadFinish_spec (oom : Nat → Bool) {base : Nat → Option Cell} {m : Mem} {h : HCtx} {c : Ctx} (hcr : CtxRep base m h c) :
    Reads oom base (Res.ofOption (configReadFinish c)) (hReadFinish h m) := by
  obtain ⟨a, d, ps, hd, hr, hc, hrest⟩ := hcr
  unfold hReadFinish configReadFinish
  rw [hd, hm_bind hr.read, ← hc]
  by_cases hk : c.device.peers.all (·.flags.hasPublicKey) = true
  · rw [if_pos hk, if_pos hk]
    exact ⟨d, ps, by rw [hc]; rfl, hr⟩
  · rw [if_neg hk, if_neg hk, hm_bind hr.free]
    exact ⟨.inl rfl, rfl, hr.free_bound⟩

/-! ### The device of `ipc_get_device` -/

theorem buildIps_spec : ∀ (l : List AllowedIP) (m : Mem), (∀ x, m.brk ≤ x → m.cell x = none) →
    ∃ p m' ns, buildIps l m = .ok (p, m') ∧ IpsAt m'.cell p ns ∧ ns.map (·.2) = l ∧ (ns.map (·.1)).Nodup ∧ (∀ x ∈ ns.map (·.1), m.brk ≤ x ∧ x < m'.brk) ∧
      m.brk ≤ m'.brk ∧ (∀ x, x ∉ ns.map (·.1) → m'.cell x = m.cell x) := by
  intro l
  induction l with
  | nil => intro m hb; exact ⟨none, m, [], rfl, .nil, rfl, by simp, by simp, Nat.le_refl _, fun _ _ => rfl⟩
  | cons a l ih =>
    intro m hb
    obtain ⟨p, m1, ns, h1, h2, h3, h4, h5, h6, h7⟩ := ih m hb
    have hf : m1.brk ∉ ns.map (·.1) := fun e => by have := (h5 _ e).2; omega
    refine ⟨some m1.brk, ⟨upd m1.cell m1.brk (some (.ip a p)), m1.brk + 1⟩, (m1.brk, a) :: ns, ?_, ?_, by simp [h3], ?_, ?_, ?_, ?_⟩
    · rw [buildIps, hm_bind h1]; rfl
    · refine .cons (upd_self ..) (h2.frame fun x hx => upd_ne _ _ ?_)
      rintro rfl
      exact hf hx
    · rw [List.map_cons, List.nodup_cons]; exact ⟨hf, h4⟩
    · intro x hx
      rw [List.map_cons, List.mem_cons] at hx
      rcases hx with rfl | hx
      · exact ⟨h6, Nat.lt_succ_self _⟩
      · exact ⟨(h5 x hx).1, Nat.lt_succ_of_lt (h5 x hx).2⟩
    · show m.brk ≤ m1.brk + 1; omega
    · intro x hx
      rw [List.map_cons, List.mem_cons, not_or] at hx
      show upd m1.cell m1.brk _ x = _
      rw [upd_ne _ _ hx.1, h7 x hx.2]

theorem buildPeers_spec : ∀ (l : List Peer) (m : Mem), (∀ x, m.brk ≤ x → m.cell x = none) →
    ∃ p m' ns, buildPeers l m = .ok (p, m') ∧ PeersAt m'.cell p ns ∧ ns.map absPeer = l ∧ (ids ns).Nodup ∧ (∀ x ∈ ids ns, m.brk ≤ x ∧ x < m'.brk) ∧
      m.brk ≤ m'.brk ∧ (∀ x, x ∉ ids ns → m'.cell x = m.cell x) := by
  intro l
  induction l with
  | nil => intro m hb; exact ⟨none, m, [], rfl, .nil, rfl, by simp [ids], by simp [ids], Nat.le_refl _, fun _ _ => rfl⟩
  | cons a l ih =>
    intro m hb
    obtain ⟨p, m1, ns, h1, h2, h3, h4, h5, h6, h7⟩ := ih m hb
    have hb1 : ∀ x, m1.brk ≤ x → m1.cell x = none := by
      intro x hx
      rw [h7 x (fun e => by have := (h5 x e).2; omega), hb x (by omega)]
    obtain ⟨q, m2, is, g1, g2, g3, g4, g5, g6, g7⟩ := buildIps_spec a.allowedIPs m1 hb1
    have hf1 : ∀ x ∈ ids ns, x ∉ is.map (·.1) := fun x hx e => by have := (h5 x hx).2; have := (g5 x e).1; omega
    have hf2 : m2.brk ∉ is.map (·.1) := fun e => by have := (g5 _ e).2; omega
    have hf3 : m2.brk ∉ ids ns := fun e => by have := (h5 _ e).2; omega
    refine ⟨some m2.brk, ⟨upd m2.cell m2.brk (some (.peer { a with allowedIPs := [] } q p)), m2.brk + 1⟩, (m2.brk, { a with allowedIPs := [] }, is) :: ns, ?_, ?_, ?_, ?_, ?_, ?_, ?_⟩
    · rw [buildPeers, hm_bind h1, hm_bind g1]; rfl
    · refine .cons (upd_self ..) (g2.frame fun x hx => upd_ne _ _ ?_) (h2.frame fun x hx => ?_)
      · rintro rfl
        exact hf2 hx
      · show upd m2.cell m2.brk _ x = _
        rw [upd_ne, g7 x (hf1 x hx)]
        rintro rfl
        exact hf3 hx
    · rw [List.map_cons, h3]
      simp [absPeer, g3]
    · rw [ids_cons, List.nodup_cons, List.nodup_append, List.mem_append, not_or]
      refine ⟨⟨hf2, hf3⟩, g4, h4, ?_⟩
      rintro x hx y hy rfl
      exact hf1 x hy hx
    · intro x hx
      rw [ids_cons, List.mem_cons, List.mem_append] at hx
      show m.brk ≤ x ∧ x < m2.brk + 1
      rcases hx with rfl | hx | hx
      · exact ⟨Nat.le_trans h6 g6, by show m2.brk < m2.brk + 1; omega⟩
      · have := g5 x hx; omega
      · have := h5 x hx; omega
    · show m.brk ≤ m2.brk + 1; omega
    · intro x hx
      rw [ids_cons, List.mem_cons, List.mem_append, not_or, not_or] at hx
      show upd m2.cell m2.brk _ x = _
      rw [upd_ne _ _ hx.1, g7 x hx.2.1, h7 x hx.2.2]

theorem buildDevice_spec (d : Device) (m : Mem) (hb : ∀ x, m.brk ≤ x → m.cell x = none) :
    ∃ r m' ns, buildDevice d m = .ok (some r, m') ∧ absDev { d with peers := [] } ns = d ∧ Rep m.cell m' r { d with peers := [] } ns := by
  obtain ⟨p, m1, ns, h1, h2, h3, h4, h5, h6, h7⟩ := buildPeers_spec d.peers m hb
  have hf : m1.brk ∉ ids ns := fun e => by have := (h5 _ e).2; omega
  refine ⟨m1.brk, ⟨upd m1.cell m1.brk (some (.dev { d with peers := [] } p)), m1.brk + 1⟩, ns, ?_, ?_, ⟨⟨p, upd_self .., h2.frame fun x hx => upd_ne _ _ ?_⟩, ?_, ?_, ?_, ?_⟩⟩
  · rw [buildDevice, hm_bind h1]; rfl
  · simp [absDev, h3]
  · rintro rfl
    exact hf hx
  · rw [List.nodup_cons]; exact ⟨hf, h4⟩
  · intro x hx
    rw [List.mem_cons, not_or] at hx
    show upd m1.cell m1.brk _ x = _
    rw [upd_ne _ _ hx.1, h7 x hx.2]
  · intro x hx
    rw [List.mem_cons] at hx
    apply hb
    rcases hx with rfl | hx
    · exact h6
    · exact (h5 x hx).1
  · intro x hx
    have hx : m1.brk + 1 ≤ x := hx
    show upd m1.cell m1.brk _ x = _
    rw [upd_ne _ _ (by omega), h7 x (fun e => by have := (h5 x e).2; omega), hb x (by omega)]

/-! ### Two devices in one heap -/

namespace Rep
variable {base : Nat → Option Cell} {m : Mem} {a : Nat} {d : Device} {ps : List PeerN}

/-- Other cells are allocated. -/
theorem grow (h : Rep base m a d ps) {m' : Mem} {l : List Nat} (hl : ∀ x ∈ l, m.cell x = none) (hrest : ∀ x, x ∉ l → m'.cell x = m.cell x)
    (hb : ∀ x, m'.brk ≤ x → m'.cell x = none) : Rep (fun x => if x ∈ l then m'.cell x else base x) m' a d ps := by
  have hne : ∀ x ∈ a :: ids ps, x ∉ l := by
    intro x hx e
    obtain ⟨c, hc⟩ := DevAt.alloc h.dev x hx
    rw [hl x e] at hc; cases hc
  refine ⟨DevAt.frame h.dev fun x hx => hrest x (hne x hx), h.nodup, ?_, ?_, hb⟩
  · intro x hx
    by_cases e : x ∈ l
    · rw [if_pos e]
    · rw [if_neg e, hrest x e, h.rest x hx]
  · intro x hx
    rw [if_neg (hne x hx), h.fresh x hx]

/-- Other cells are freed. -/
theorem shrink (h : Rep base m a d ps) {l : List Nat} (hl : ∀ x ∈ l, base x ≠ none) : Rep (without base l) ⟨without m.cell l, m.brk⟩ a d ps := by
  have hne : ∀ x ∈ a :: ids ps, x ∉ l := fun x hx e => hl x e (h.fresh x hx)
  refine ⟨DevAt.frame h.dev fun x hx => if_neg (hne x hx), h.nodup, ?_, ?_, ?_⟩
  · intro x hx
    simp only [without]
    split
    · rfl
    · exact h.rest x hx
  · intro x hx
    rw [without, if_neg (hne x hx), h.fresh x hx]
  · intro x hx
    simp only [without]
    split
    · rfl
    · exact h.bound x hx

/-- setconf.c:89-90: a new peer in front. -/
theorem pushPeer (h : Rep base m a d ps) {t : Nat} {q : Peer} (ht : base t = some (.peer q none none)) :
    ∃ first m1 m2, m.cell a = some (.dev d first) ∧ hmod (some t) (setNextPeer first) m = .ok ((), m1) ∧ hmod (some a) (setFirstPeer (some t)) m1 = .ok ((), m2) ∧
      Rep (upd base t none) m2 a d ((t, q, []) :: ps) := by
  obtain ⟨first, h1, h2⟩ := h.dev
  have hto := h.other ht
  have hta : a ≠ t := fun e => hto.1 (by simp [e])
  have hnd := h.nodup
  rw [List.nodup_cons] at hnd
  have h1' : upd m.cell t (some (.peer q none first)) a = some (.dev d first) := by rw [upd_ne _ _ hta, h1]
  refine ⟨first, _, _, h1, hmod_ok hto.2 rfl, hmod_ok (m := ⟨upd m.cell t (some (.peer q none first)), m.brk⟩) h1' rfl, ?_⟩
  have h' := h.modOther ht (f := setNextPeer first) (c' := .peer q none first) rfl
  have := h'.2.extend (t := t) (c := .peer q none first) (upd_self ..) (cells := upd (upd m.cell t (some (.peer q none first))) a (some (.dev d (some t)))) (d' := d) (ps' := (t, q, []) :: ps)
    ⟨some t, upd_self .., .cons (first := none) (next := first) (by rw [upd_ne _ _ hta.symm, upd_self]) .nil (h2.frame fun x hx => ?_)⟩ (by rw [ids_cons]; exact List.Perm.refl _) ?_
  · rwa [upd_upd] at this
  · have hxa : x ≠ a := by
      rintro rfl
      exact hnd.1 hx
    have hxt : x ≠ t := by
      rintro rfl
      exact hto.1 (List.mem_cons_of_mem _ hx)
    rw [upd_ne _ _ hxa, upd_ne _ _ hxt]
  · intro x hx
    rw [List.mem_cons, not_or] at hx
    exact upd_ne _ _ hx.1

end Rep

/-- setconf.c:77-95 -/
theorem hRemovals_spec (oom : Nat → Bool) : ∀ (ks : List Key) {base : Nat → Option Cell} {m : Mem} {a : Nat} {d : Device} {ps : List PeerN} (_ : Rep base m a d ps),
    (∃ m' ps', hRemovals oom (some a) ks m = .ok (true, m') ∧ ps'.map absPeer = pushRemovals ks (ps.map absPeer) ∧ Rep base m' a d ps') ∨
    (∃ m' ps', hRemovals oom (some a) ks m = .ok (false, m') ∧ (∃ n, oom n = true) ∧ Rep base m' a d ps') := by
  intro ks
  induction ks with
  | nil => intro base m a d ps h; exact .inl ⟨m, ps, rfl, rfl, h⟩
  | cons k ks ih =>
    intro base m a d ps h
    rw [hRemovals]
    rcases halloc_cases oom (.peer {} none none) m with ⟨ho, he⟩ | ⟨ho, he⟩
    · rw [hm_bind he]
      exact .inr ⟨_, ps, rfl, ⟨_, ho⟩, h.later⟩
    · rw [hm_bind he]
      simp only [reduceCtorEq, if_false]
      obtain ⟨e1, r1⟩ := (h.alloc (.peer {} none none)).modOther (t := m.brk) (upd_self ..) (f := onPeer fun p => { p with flags := { removeMe := true } })
        (c' := .peer { flags := { removeMe := true } } none none) rfl
      rw [upd_upd] at r1
      obtain ⟨e2, r2⟩ := r1.modOther (t := m.brk) (upd_self ..) (f := onPeer fun p => { p with publicKey := k }) (c' := .peer { publicKey := k, flags := { removeMe := true } } none none) rfl
      rw [upd_upd] at r2
      obtain ⟨first, m3, m4, h3, e3, e4, r4⟩ := r2.pushPeer (t := m.brk) (upd_self ..)
      rw [hm_bind e1, hm_bind e2, hm_bind (hload_ok h3)]
      simp only
      rw [hm_bind e3, hm_bind e4]
      have r5 := r4.cast (base' := base) (by rw [upd_upd]; exact upd_id _ _ _ h.brk_fresh.2)
      rcases ih r5 with ⟨m', ps', g1, g2, g3⟩ | ⟨m', ps', g1, g2, g3⟩
      · exact .inl ⟨m', ps', g1, by rw [g2]; rfl, g3⟩
      · exact .inr ⟨m', ps', g1, g2, g3⟩

/-- setconf.c:30-99 -/
theorem hSyncConf_spec (oom : Nat → Bool) (sort : List PubkeyOrigin → List PubkeyOrigin) (ipc : Ipc) {base : Nat → Option Cell} {m : Mem} {a : Nat} {d : Device} {ps : List PeerN}
    (h : Rep base m a d ps) :
    match hSyncConf oom sort ipc (some a) m with
    | .ok ((true, calls), m') => ∃ d' ps', syncConf sort ipc (absDev d ps) = (.ok (absDev d' ps'), calls) ∧ Rep base m' a d' ps'
    | .ok ((false, calls), m') => (syncConf sort ipc (absDev d ps) = (.fail, calls) ∨ (∃ n, oom n = true) ∧ ∀ d, .set d ∉ calls) ∧ ∃ d' ps', Rep base m' a d' ps'
    | .ub => (syncConf sort ipc (absDev d ps)).1 = .ub
    | _ => False := by
  unfold hSyncConf syncConf
  rw [hm_bind h.read]
  by_cases hp : (absDev d ps).peers = []
  · rw [if_pos hp, if_pos hp]
    exact ⟨d, ps, rfl, h⟩
  rw [if_neg hp, if_neg hp]
  obtain ⟨code, dev⟩ := ipc.get (absDev d ps).name
  by_cases hz : code = 0
  swap
  · rcases code with (_ | n) | n
    · exact absurd rfl hz
    · cases dev <;> exact ⟨.inl rfl, d, ps, h⟩
    · cases dev <;> exact ⟨.inl rfl, d, ps, h⟩
  subst hz
  cases dev with
  | none => rfl
  | some r =>
    simp only
    obtain ⟨rt, m1, rs, e1, hr, r1⟩ := buildDevice_spec r m h.bound
    rw [hm_bind e1]
    by_cases hrp : r.peers = []
    · rw [if_pos hrp, if_pos hrp, hm_bind r1.free]
      exact ⟨d, ps, rfl, h.dev, h.nodup, h.rest, h.fresh, r1.free_bound⟩
    rw [if_neg hrp, if_neg hrp]
    have hLnone : ∀ x ∈ rt :: ids rs, m.cell x = none := fun x hx => r1.fresh x hx
    have hLbase : ∀ x ∈ rt :: ids rs, base x = none := by
      intro x hx
      rw [← h.rest x, hLnone x hx]
      intro e
      obtain ⟨c, hc⟩ := DevAt.alloc h.dev x e
      rw [hLnone x hx] at hc; cases hc
    -- the file's device, over the runtime device
    have r2 := h.grow (m' := m1) (l := rt :: ids rs) hLnone (fun x hx => r1.rest x hx) r1.bound
    obtain ⟨B, hB⟩ : ∃ B : Nat → Option Cell, B = fun x => if x ∈ rt :: ids rs then m1.cell x else base x := ⟨_, rfl⟩
    rw [← hB] at r2
    have hBdev : DevAt B rt { r with peers := [] } rs := DevAt.frame r1.dev fun x hx => by rw [hB]; exact if_pos hx
    have hBsome : ∀ x ∈ rt :: ids rs, B x ≠ none := by
      intro x hx e
      obtain ⟨c, hc⟩ := hBdev.alloc x hx
      rw [e] at hc; cases hc
    have hBback : without B (rt :: ids rs) = base := by
      funext x
      simp only [without]
      by_cases hx : x ∈ rt :: ids rs
      · rw [if_pos hx, hLbase x hx]
      · rw [if_neg hx, hB]; exact if_neg hx
    obtain ⟨m2, e2, r3, -⟩ := r2.onDevice (fun d => { d with flags := { d.flags with replacePeers := false } })
    rw [hm_bind e2]
    -- reading and freeing the runtime device
    have rtDev : ∀ {B' : Nat → Option Cell} {m' : Mem} {d' : Device} {ps' : List PeerN}, Rep B' m' a d' ps' → (∀ x ∈ rt :: ids rs, B' x = B x) →
        DevAt m'.cell rt { r with peers := [] } rs := by
      intro B' m' d' ps' hr' hB'
      refine hBdev.frame fun x hx => ?_
      rw [hr'.rest x, hB' x hx]
      intro e
      have := hr'.fresh x e
      rw [hB' x hx] at this
      exact hBsome x hx this
    rcases halloc_cases oom .bytes m2 with ⟨ho, he⟩ | ⟨ho, he⟩
    · rw [hm_bind he]
      simp only [if_true]
      have := (rtDev r3.later (fun _ _ => rfl)).free r1.nodup r3.later.bound
      rw [hm_bind this]
      exact ⟨.inr ⟨⟨_, ho⟩, by simp⟩, _, _, (r3.later.shrink hBsome).cast hBback⟩
    · rw [hm_bind he]
      simp only [reduceCtorEq, if_false]
      have r4 := r3.alloc .bytes
      have hkne : ∀ x ∈ rt :: ids rs, x ≠ m2.brk := by
        rintro x hx rfl
        exact hBsome _ hx r3.brk_fresh.2
      have hB4 : ∀ x ∈ rt :: ids rs, upd B m2.brk (some .bytes) x = B x := fun x hx => upd_ne _ _ (hkne x hx)
      have hread := (rtDev r4 hB4).read r1.nodup r4.bound
      rw [hm_bind hread, hr]
      have hback : upd (without (upd B m2.brk (some .bytes)) (rt :: ids rs)) m2.brk none = base := by
        rw [← hBback]
        funext x
        by_cases hx : x = m2.brk
        · subst hx
          rw [upd_self, hBback]
          rw [← hBback]
          have := r3.brk_fresh.2
          simp only [without]
          split
          · rfl
          · exact this.symm
        · rw [upd_ne _ _ hx]
          simp only [without, upd, hx, if_false]
      have hks : without (upd B m2.brk (some .bytes)) (rt :: ids rs) m2.brk = some .bytes := by
        simp only [without]
        rw [if_neg (fun e => hkne _ e rfl), upd_self]
      have hsome4 : ∀ x ∈ rt :: ids rs, upd B m2.brk (some .bytes) x ≠ none := fun x hx => by rw [hB4 x hx]; exact hBsome x hx
      rcases hRemovals_spec oom (removals (sort (origins (absDev d ps) r))) r4 with ⟨m5, ps5, e5, h5, r5⟩ | ⟨m5, ps5, e5, ho5, r5⟩
      · have hfree := (rtDev r5 hB4).free r1.nodup r5.bound
        obtain ⟨e6, r6⟩ := (r5.shrink hsome4).freeOther hks
        rw [hm_bind e5, hm_bind hfree, hm_bind e6]
        refine ⟨_, ps5, ?_, r6.cast hback⟩
        have : syncPeers sort (absDev d ps) r = absDev { d with flags := { d.flags with replacePeers := false } } ps5 := by
          simp only [syncPeers, absDev, h5]
        rw [this]
      · have hfree := (rtDev r5 hB4).free r1.nodup r5.bound
        obtain ⟨e6, r6⟩ := (r5.shrink hsome4).freeOther hks
        rw [hm_bind e5, hm_bind hfree, hm_bind e6]
        exact ⟨.inr ⟨ho5, by simp⟩, _, ps5, r6.cast hback⟩

/-- setconf.c:143-155 -/
theorem hSend_spec (ipc : Ipc) {base : Nat → Option Cell} {m : Mem} {a t : Nat} {d : Device} {ps : List PeerN} (calls : List IpcCall) (h : Rep (upd base t (some .bytes)) m a d ps)
    (ht : base t = none) : ∃ m', hSend ipc (some a) (some t) calls m = .ok ((if ipc.set (absDev d ps) ≠ 0 then 1 else 0, calls ++ [.set (absDev d ps)]), m') ∧ m'.cell = base := by
  unfold hSend
  obtain ⟨e1, r1⟩ := h.freeOther (t := t) (upd_self ..)
  rw [upd_upd, upd_id _ _ _ ht] at r1
  rw [hm_bind h.read, hm_bind e1, hm_bind r1.free]
  exact ⟨_, rfl, rfl⟩

/-- config.c:529-556, setconf.c:120-133: the device of a file, while there is a buffer. -/
theorem hFile_spec (oom : Nat → Bool) (env : Env) (append : Bool) (ls : List CStr) {base : Nat → Option Cell} {m : Mem} {h : HCtx} (hcr : CtxRep base m h (configReadInit append))
    {t : Nat} (ht : base t = some .bytes) {β : Type} (no : β) (k : Ptr → HM β) :
    ∃ z : Res (Ptr × Mem), Reads oom base ((readLines env (configReadInit append) ls).bind fun ctx => Res.ofOption (configReadFinish ctx)) z ∧
      ((do
        let (ok, ctx) ← hReadLines oom env h ls
        if !ok then do
          hfree (some t)
          pure no
        else do
          let dev ← hReadFinish ctx
          if dev = none then do
            hfree (some t)
            pure no
          else k dev : HM β) m) = match z with
        | .ok (some a, m') => k (some a) m'
        | .ok (none, m') => .ok (no, ⟨upd base t none, m'.brk⟩)
        | .exit1 => .exit1
        | .running => .running
        | _ => .ub := by
  have := hReadLines_spec oom env ls hcr
  revert this
  rw [hm_bind_def]
  cases hReadLines oom env h ls m with
  | ok r =>
    obtain ⟨⟨b, h'⟩, m'⟩ := r
    rw [okb ((b, h'), m')]
    cases b with
    | true =>
      rintro ⟨hdev, c', hc', hcr'⟩
      refine ⟨hReadFinish h' m', by rw [hc', okb]; exact hReadFinish_spec oom hcr', ?_⟩
      simp only [Bool.not_true, Bool.false_eq_true, if_false]
      have := hReadFinish_spec oom hcr'
      revert this
      rw [hm_bind_def]
      cases hReadFinish h' m' with
      | ok r =>
        obtain ⟨p, m2⟩ := r
        rw [okb (p, m2)]
        cases p with
        | some a => intro _; simp only [reduceCtorEq, if_false]
        | none =>
          rintro ⟨-, h2, -⟩
          simp only [if_true]
          rw [hm_bind (hfree_ok (m := m2) (c := .bytes) (by rw [h2, ht])), h2]
          rfl
      | exit1 => intro _; rfl
      | running => intro _; rfl
      | fail => exact False.elim
      | ub => exact False.elim
    | false =>
      rintro ⟨h1, h2, h3⟩
      refine ⟨.ok (none, m'), ⟨h1.imp_left fun e => by rw [e], h2, h3⟩, ?_⟩
      simp only [Bool.not_false, if_true]
      rw [hm_bind (hfree_ok (m := m') (c := .bytes) (by rw [h2, ht])), h2]
      rfl
  | exit1 =>
    intro h1
    refine ⟨.exit1, ?_, rfl⟩
    simp only [Outcome', Reads] at h1 ⊢
    rw [h1]
  | running =>
    intro h1
    refine ⟨.running, ?_, rfl⟩
    simp only [Outcome', Reads] at h1 ⊢
    rw [h1]
  | fail => exact False.elim
  | ub => exact False.elim

/-- setconf.c:101-156 -/
theorem hSetconfMain_spec (oom : Nat → Bool) (env : Env) (sort : List PubkeyOrigin → List PubkeyOrigin) (ipc : Ipc) (argv : List CStr) (m : Mem) (hb : ∀ x, m.brk ≤ x → m.cell x = none) :
    Ends oom m.cell (setconfMain env sort ipc argv) (hSetconfMain oom env sort ipc argv m) := by
  match argv with
  | [] => exact ⟨rfl, .inl rfl⟩
  | [_] => exact ⟨rfl, .inl rfl⟩
  | [_, _] => exact ⟨rfl, .inl rfl⟩
  | _ :: _ :: _ :: _ :: _ => exact ⟨rfl, .inl rfl⟩
  | [cmd, iface, path] =>
    unfold hSetconfMain setconfMain readConfigFile
    simp only
    cases env.file path with
    | none => exact ⟨rfl, .inl rfl⟩
    | some f =>
      simp only
      have hinit : hReadInit oom (cmd = b!"addconf") = halloc oom (.dev (configReadInit (cmd = b!"addconf")).device none) := rfl
      rw [hinit]
      rcases halloc_cases oom (.dev (configReadInit (cmd = b!"addconf")).device none) m with ⟨ho, he⟩ | ⟨ho, he⟩
      · rw [hm_bind he]
        exact ⟨rfl, .inr ⟨⟨_, ho⟩, rfl, by simp⟩⟩
      · rw [hm_bind he]
        simp only [reduceCtorEq, if_false]
        have r0 := Rep.new hb (configReadInit (cmd = b!"addconf")).device
        have r1 := r0.alloc .bytes
        have hbuf : halloc (fun _ => false) .bytes ⟨upd m.cell m.brk (some (.dev (configReadInit (cmd = b!"addconf")).device none)), m.brk + 1⟩ =
          .ok (some (m.brk + 1), ⟨upd (upd m.cell m.brk (some (.dev (configReadInit (cmd = b!"addconf")).device none))) (m.brk + 1) (some .bytes), m.brk + 1 + 1⟩) := rfl
        rw [hm_bind hbuf]
        have hcr : CtxRep (upd m.cell (m.brk + 1) (some .bytes)) ⟨upd (upd m.cell m.brk (some (.dev (configReadInit (cmd = b!"addconf")).device none))) (m.brk + 1) (some .bytes), m.brk + 1 + 1⟩
            { device := some m.brk } (configReadInit (cmd = b!"addconf")) :=
          ⟨m.brk, _, [], rfl, r1, rfl, rfl, rfl, rfl, rfl, rfl, rfl, by simp⟩
        have hne : m.cell (m.brk + 1) = none := hb _ (by omega)
        obtain ⟨z, hz, hrun⟩ := hFile_spec oom env (cmd = b!"addconf") ((getlines f.bytes).map cstr) hcr (t := m.brk + 1) (upd_self ..) ((1, []) : Nat × List IpcCall) (fun dev => do
            hmod dev (onDev fun d => { d with name := copyName iface })
            if cmd = b!"syncconf" then do
              let (ok, calls) ← hSyncConf oom sort ipc dev
              if ok then hSend ipc dev (some (m.brk + 1)) calls
              else do
                hfree (some (m.brk + 1))
                freeDevice dev
                pure (1, calls)
            else hSend ipc dev (some (m.brk + 1)) [])
        rw [hrun]
        cases hres : ((readLines env (configReadInit (cmd = b!"addconf")) ((getlines f.bytes).map cstr)).bind fun ctx => Res.ofOption (configReadFinish ctx)) with
        | fail =>
          rw [hres] at hz
          match z, hz with
          | .ok (none, m'), ⟨h1, h2, h3⟩ => exact ⟨by show upd _ _ _ = _; rw [upd_upd, upd_id _ _ _ hne], .inl rfl⟩
        | exit1 =>
          rw [hres] at hz
          match z, hz with
          | .ok (none, m'), ⟨h1, h2, h3⟩ => exact ⟨by show upd _ _ _ = _; rw [upd_upd, upd_id _ _ _ hne], .inr ⟨h1.resolve_left (by simp), rfl, by simp⟩⟩
          | .exit1, _ => rfl
        | running =>
          rw [hres] at hz
          match z, hz with
          | .ok (none, m'), ⟨h1, h2, h3⟩ => exact ⟨by show upd _ _ _ = _; rw [upd_upd, upd_id _ _ _ hne], .inr ⟨h1.resolve_left (by simp), rfl, by simp⟩⟩
          | .running, _ => rfl
        | ub =>
          rw [hres] at hz
          match z, hz with
          | .ok (none, m'), ⟨h1, h2, h3⟩ => exact ⟨by show upd _ _ _ = _; rw [upd_upd, upd_id _ _ _ hne], .inr ⟨h1.resolve_left (by simp), rfl, by simp⟩⟩
        | ok d =>
          rw [hres] at hz
          match z, hz with
          | .ok (none, m'), ⟨h1, h2, h3⟩ => exact ⟨by show upd _ _ _ = _; rw [upd_upd, upd_id _ _ _ hne], .inr ⟨h1.resolve_left (by simp), rfl, by simp⟩⟩
          | .ok (some a, m'), ⟨d', ps', hd, r2⟩ =>
            have hd : d = absDev d' ps' := by injection hd
            simp only
            obtain ⟨m3, e3, r3, -⟩ := r2.onDevice (fun d => { d with name := copyName iface })
            rw [hm_bind e3]
            have hx : absDev { d' with name := copyName iface } ps' = { d with name := copyName iface } := by rw [hd]; rfl
            by_cases hs : cmd = b!"syncconf"
            · rw [if_pos hs, if_pos hs]
              have := hSyncConf_spec oom sort ipc r3
              rw [hx] at this
              revert this
              rw [hm_bind_def]
              cases hSyncConf oom sort ipc (some a) m3 with
              | ok r =>
                obtain ⟨⟨b, calls⟩, m4⟩ := r
                rw [okb ((b, calls), m4)]
                cases b with
                | true =>
                  rintro ⟨d4, ps4, h4, r4⟩
                  simp only [if_true]
                  obtain ⟨m5, e5, h5⟩ := hSend_spec ipc calls r4 hne
                  rw [e5, h4]
                  refine ⟨h5, .inl ?_⟩
                  simp only [sendDevice]
                  split <;> rfl
                | false =>
                  rintro ⟨h4, d4, ps4, r4⟩
                  simp only [Bool.false_eq_true, if_false]
                  obtain ⟨e5, r5⟩ := r4.freeOther (t := m.brk + 1) (upd_self ..)
                  rw [upd_upd, upd_id _ _ _ hne] at r5
                  rw [hm_bind e5, hm_bind r5.free]
                  refine ⟨rfl, ?_⟩
                  rcases h4 with h4 | h4
                  · rw [h4]; exact .inl rfl
                  · exact .inr ⟨h4.1, rfl, h4.2⟩
              | ub =>
                intro h1
                show (match syncConf sort ipc { d with name := copyName iface } with
                  | (.ok d, calls) => (⟨(sendDevice ipc d).end_, calls ++ (sendDevice ipc d).calls⟩ : Run)
                  | (.ub, calls) => ⟨.ub, calls⟩
                  | (_, calls) => ⟨.ok 1, calls⟩).end_ = .ub
                revert h1
                generalize syncConf sort ipc { d with name := copyName iface } = w
                obtain ⟨w, calls⟩ := w
                rintro rfl
                rfl
              | _ => exact False.elim
            · rw [if_neg hs, if_neg hs]
              obtain ⟨m5, e5, h5⟩ := hSend_spec ipc [] r3 hne
              rw [e5, hx]
              refine ⟨h5, .inl ?_⟩
              simp only [sendDevice]
              split <;> rfl

end WG
