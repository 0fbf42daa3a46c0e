import Verif.Spec.Heap
import Verif.Proof.NetlinkWalk
/-! The nodes of a device in the heap (C49). -/
namespace WG

theorem hm_bind {α β : Type} {x : HM α} {f : α → HM β} {m m' : Mem} {a : α} (h : x m = .ok (a, m')) : (x >>= f) m = f a m' := by
  show (x m).bind _ = _
  rw [h]

theorem hm_bind_def {α β : Type} (x : HM α) (f : α → HM β) (m : Mem) : (x >>= f) m = (x m).bind fun r => f r.1 r.2 := rfl

theorem hm_pure {α : Type} (a : α) (m : Mem) : (pure a : HM α) m = .ok (a, m) := rfl

theorem upd_self (f : Nat → Option Cell) (a : Nat) (c : Option Cell) : upd f a c a = c := by simp [upd]
theorem upd_ne (f : Nat → Option Cell) {a x : Nat} (c : Option Cell) (h : x ≠ a) : upd f a c x = f x := by simp [upd, h]
theorem upd_upd (f : Nat → Option Cell) (a : Nat) (c c' : Option Cell) : upd (upd f a c) a c' = upd f a c' := by
  funext x; by_cases h : x = a <;> simp [upd, h]
theorem upd_id (f : Nat → Option Cell) (a : Nat) (c : Option Cell) (h : f a = c) : upd f a c = f := by
  funext x; by_cases hx : x = a
  · subst hx; rw [upd_self, h]
  · rw [upd_ne f c hx]
theorem upd_comm (f : Nat → Option Cell) {a b : Nat} (c c' : Option Cell) (h : a ≠ b) : upd (upd f a c) b c' = upd (upd f b c') a c := by
  funext x
  by_cases h1 : x = a
  · subst h1; rw [upd_ne _ _ h, upd_self, upd_self]
  · by_cases h2 : x = b
    · subst h2; rw [upd_self, upd_ne _ _ h1, upd_self]
    · rw [upd_ne _ _ h2, upd_ne _ _ h1, upd_ne _ _ h1, upd_ne _ _ h2]

/-- The last node's address. -/
def lastId {β : Type} (l : List (Nat × β)) : Ptr := l.getLast?.map Prod.fst

theorem ids_cons (n : PeerN) (ps : List PeerN) : ids (n :: ps) = n.1 :: (n.2.2.map (·.1) ++ ids ps) := by simp [ids, pids]
theorem ids_append (a b : List PeerN) : ids (a ++ b) = ids a ++ ids b := by simp [ids]

theorem IpsAt.frame {f g : Nat → Option Cell} {p : Ptr} {l : List IpN} (h : IpsAt f p l) (hg : ∀ x ∈ l.map (·.1), g x = f x) : IpsAt g p l := by
  induction h with
  | nil => exact .nil
  | cons h1 h2 ih => exact .cons (by rw [hg _ (by simp), h1]) (ih fun x hx => hg x (by simp only [List.map_cons, List.mem_cons]; exact .inr hx))

theorem PeersAt.frame {f g : Nat → Option Cell} {p : Ptr} {ps : List PeerN} (h : PeersAt f p ps) (hg : ∀ x ∈ ids ps, g x = f x) : PeersAt g p ps := by
  induction h with
  | nil => exact .nil
  | cons h1 h2 h3 ih =>
    rw [ids_cons] at hg
    exact .cons (by rw [hg _ (by simp), h1]) (h2.frame fun x hx => hg x (by simp only [List.mem_cons, List.mem_append]; exact .inr (.inl hx)))
      (ih fun x hx => hg x (by simp only [List.mem_cons, List.mem_append]; exact .inr (.inr hx)))

/-- The nodes from one on can be exchanged. -/
theorem IpsAt.tail {f : Nat → Option Cell} : ∀ {init : List IpN} {p : Ptr} {x : Nat} {v : AllowedIP} {rest : List IpN}, IpsAt f p (init ++ (x, v) :: rest) →
    (∃ n, f x = some (.ip v n) ∧ IpsAt f n rest) ∧ ∀ (g : Nat → Option Cell) (tl : List IpN), (∀ y ∈ init.map (·.1), g y = f y) → IpsAt g (some x) tl → IpsAt g p (init ++ tl) := by
  intro init
  induction init with
  | nil =>
    intro p x v rest h
    cases h with
    | cons h1 h2 => exact ⟨⟨_, h1, h2⟩, fun g tl _ h => h⟩
  | cons n init ih =>
    intro p x v rest h
    cases h with
    | cons h1 h2 =>
      obtain ⟨i1, i2⟩ := ih h2
      exact ⟨i1, fun g tl hg h => .cons (by rw [hg _ (by simp), h1]) (i2 g tl (fun y hy => hg y (by simp only [List.map_cons, List.mem_cons]; exact .inr hy)) h)⟩

theorem PeersAt.tail {f : Nat → Option Cell} : ∀ {init : List PeerN} {p : Ptr} {n : PeerN} {rest : List PeerN}, PeersAt f p (init ++ n :: rest) →
    (∃ first next, f n.1 = some (.peer n.2.1 first next) ∧ IpsAt f first n.2.2 ∧ PeersAt f next rest) ∧
    ∀ (g : Nat → Option Cell) (tl : List PeerN), (∀ y ∈ ids init, g y = f y) → PeersAt g (some n.1) tl → PeersAt g p (init ++ tl) := by
  intro init
  induction init with
  | nil =>
    intro p n rest h
    cases h with
    | cons h1 h2 h3 => exact ⟨⟨_, _, h1, h2, h3⟩, fun g tl _ h => h⟩
  | cons k init ih =>
    intro p n rest h
    cases h with
    | cons h1 h2 h3 =>
      obtain ⟨i1, i2⟩ := ih h3
      refine ⟨i1, fun g tl hg h => ?_⟩
      rw [ids_cons] at hg
      exact .cons (by rw [hg _ (by simp), h1]) (h2.frame fun x hx => hg x (by simp only [List.mem_cons, List.mem_append]; exact .inr (.inl hx)))
        (i2 g tl (fun y hy => hg y (by simp only [List.mem_cons, List.mem_append]; exact .inr (.inr hy))) h)

/-! ### Freeing -/

theorem without_cons (f : Nat → Option Cell) (a : Nat) (l : List Nat) : without (upd f a none) l = without f (a :: l) := by
  funext x
  simp only [without, upd, List.mem_cons]
  by_cases h1 : x ∈ l <;> by_cases h2 : x = a <;> simp [h1, h2]

theorem without_append (f : Nat → Option Cell) (a b : List Nat) : without (without f a) b = without f (a ++ b) := by
  funext x
  simp only [without, List.mem_append]
  by_cases h1 : x ∈ b <;> by_cases h2 : x ∈ a <;> simp [h1, h2]

theorem hfree_ok {m : Mem} {a : Nat} {c : Cell} (h : m.cell a = some c) : hfree (some a) m = .ok ((), ⟨upd m.cell a none, m.brk⟩) := by
  simp [hfree, h]

theorem hload_ok {m : Mem} {a : Nat} {c : Cell} (h : m.cell a = some c) : hload (some a) m = .ok (c, m) := by
  simp [hload, h]

theorem hmod_ok {m : Mem} {a : Nat} {c c' : Cell} {f : Cell → Option Cell} (h : m.cell a = some c) (hf : f c = some c') :
    hmod (some a) f m = .ok ((), ⟨upd m.cell a (some c'), m.brk⟩) := by
  simp [hmod, h, hf]

theorem freeIps_spec : ∀ (l : List IpN) (m : Mem) (p : Ptr) (fuel : Nat), IpsAt m.cell p l → (l.map (·.1)).Nodup → l.length < fuel →
    freeIps fuel p m = .ok ((), ⟨without m.cell (l.map (·.1)), m.brk⟩) := by
  intro l
  induction l with
  | nil =>
    intro m p fuel h _ hf
    cases h
    cases fuel with
    | zero => simp at hf
    | succ fuel => rfl
  | cons n l ih =>
    intro m p fuel h hn hf
    cases h with
    | @cons a v next _ h1 h2 =>
      cases fuel with
      | zero => simp at hf
      | succ fuel =>
        rw [List.map_cons, List.nodup_cons] at hn
        rw [freeIps, hm_bind (hload_ok h1)]
        simp only
        rw [hm_bind (hfree_ok h1)]
        rw [ih ⟨upd m.cell a none, m.brk⟩ next fuel (h2.frame fun x hx => upd_ne _ _ (fun e => hn.1 (e ▸ hx))) hn.2 (by simpa using hf)]
        simp only [List.map_cons, without_cons]

theorem freePeers_spec : ∀ (ps : List PeerN) (m : Mem) (p : Ptr) (fuel : Nat), PeersAt m.cell p ps → (ids ps).Nodup → (ids ps).length < fuel →
    freePeers fuel p m = .ok ((), ⟨without m.cell (ids ps), m.brk⟩) := by
  intro ps
  induction ps with
  | nil =>
    intro m p fuel h _ hf
    cases h
    cases fuel with
    | zero => simp at hf
    | succ fuel => rfl
  | cons n ps ih =>
    intro m p fuel h hn hf
    cases h with
    | @cons a q first next l _ h1 h2 h3 =>
      cases fuel with
      | zero => simp at hf
      | succ fuel =>
        rw [ids_cons] at hn hf
        simp only at hn hf
        rw [List.nodup_cons, List.nodup_append] at hn
        obtain ⟨hn1, hn2, hn3, hn4⟩ := hn
        simp only [List.length_cons, List.length_append, List.length_map] at hf
        rw [freePeers, hm_bind (hload_ok h1)]
        simp only
        rw [hm_bind (freeIps_spec l m first (fuel + 1) h2 hn2 (by omega))]
        have ha : without m.cell (l.map (·.1)) a = some (.peer q first next) := by
          rw [without, if_neg (fun e => hn1 (List.mem_append_left _ e)), h1]
        rw [hm_bind (hfree_ok (m := ⟨without m.cell (l.map (·.1)), m.brk⟩) ha)]
        rw [ih ⟨upd (without m.cell (l.map (·.1))) a none, m.brk⟩ next fuel (h3.frame fun x hx => ?_) hn3 (by omega)]
        · simp only [ids_cons]
          congr 3
          rw [without_cons]
          rw [without_append]
          funext x
          simp only [without, List.mem_append, List.mem_cons]
          by_cases h1 : x = a <;> by_cases h2 : x ∈ l.map (·.1) <;> by_cases h3 : x ∈ ids ps <;> simp [h1, h2, h3]
        · have hxa : x ≠ a := by
            intro e
            rw [e] at hx
            exact hn1 (List.mem_append_right _ hx)
          have hxl : x ∉ l.map (·.1) := fun e => hn4 x e x hx rfl
          show upd (without m.cell (l.map (·.1))) a none x = _
          rw [upd_ne _ _ hxa]
          exact if_neg hxl

/-! ### A device, and nothing else new -/

/-- The heap is `base`, and in addition the nodes of a device. -/
structure Rep (base : Nat → Option Cell) (m : Mem) (a : Nat) (d : Device) (ps : List PeerN) : Prop where
  dev : ∃ first, m.cell a = some (.dev d first) ∧ PeersAt m.cell first ps
  nodup : (a :: ids ps).Nodup
  rest : ∀ x, x ∉ a :: ids ps → m.cell x = base x
  fresh : ∀ x ∈ a :: ids ps, base x = none
  bound : ∀ x, m.brk ≤ x → m.cell x = none

def absPeer (n : PeerN) : Peer := { n.2.1 with allowedIPs := n.2.2.map (·.2) }
def absDev (d : Device) (ps : List PeerN) : Device := { d with peers := ps.map absPeer }

theorem PeersAt.alloc {f : Nat → Option Cell} {p : Ptr} {ps : List PeerN} (h : PeersAt f p ps) : ∀ x ∈ ids ps, ∃ c, f x = some c := by
  have hips : ∀ {q : Ptr} {l : List IpN}, IpsAt f q l → ∀ x ∈ l.map (·.1), ∃ c, f x = some c := by
    intro q l h
    induction h with
    | nil => simp
    | cons h1 h2 ih =>
      intro x hx
      simp only [List.map_cons, List.mem_cons] at hx
      rcases hx with rfl | hx
      · exact ⟨_, h1⟩
      · exact ih x hx
  induction h with
  | nil => simp [ids]
  | cons h1 h2 h3 ih =>
    intro x hx
    rw [ids_cons] at hx
    simp only [List.mem_cons, List.mem_append] at hx
    rcases hx with rfl | hx | hx
    · exact ⟨_, h1⟩
    · exact hips h2 x hx
    · exact ih x hx

theorem nodup_bound_length {l : List Nat} {n : Nat} (hn : l.Nodup) (h : ∀ x ∈ l, x < n) : l.length ≤ n := by
  induction n generalizing l with
  | zero => cases l with
    | nil => simp
    | cons x l => exact absurd (h x (by simp)) (by omega)
  | succ n ih =>
    have h1 := ih (hn.erase n) (fun x hx => by
      have := h x (List.mem_of_mem_erase hx)
      have hne : x ≠ n := by
        rintro rfl
        exact hn.not_mem_erase hx
      omega)
    have := List.length_erase (a := n) (l := l)
    split at this <;> omega

namespace Rep
variable {base : Nat → Option Cell} {m : Mem} {a : Nat} {d : Device} {ps : List PeerN}

theorem ids_length (h : Rep base m a d ps) : (ids ps).length < m.brk + 2 := by
  obtain ⟨first, h1, h2⟩ := h.dev
  have := nodup_bound_length h.nodup (n := m.brk) (by
    intro x hx
    rcases Nat.lt_or_ge x m.brk with hlt | hge
    · exact hlt
    · have hb := h.bound x hge
      rw [List.mem_cons] at hx
      rcases hx with rfl | hx
      · rw [h1] at hb; cases hb
      · obtain ⟨c, hc⟩ := h2.alloc x hx; rw [hc] at hb; cases hb)
  rw [List.length_cons] at this
  omega

/-- `free_wgdevice` gives back exactly the device's nodes. -/
theorem free (h : Rep base m a d ps) : freeDevice (some a) m = .ok ((), ⟨base, m.brk⟩) := by
  obtain ⟨first, h1, h2⟩ := h.dev
  have hn := h.nodup
  rw [List.nodup_cons] at hn
  show ((hload (some a) >>= _) m) = _
  rw [hm_bind (hload_ok h1)]
  simp only
  rw [hm_bind (freePeers_spec ps m first (m.brk + 2) h2 hn.2 h.ids_length)]
  have ha : without m.cell (ids ps) a = some (.dev d first) := by rw [without, if_neg hn.1, h1]
  rw [hfree_ok (m := ⟨without m.cell (ids ps), m.brk⟩) ha]
  congr 3
  funext x
  by_cases hx : x ∈ a :: ids ps
  · rw [h.fresh x hx]
    rw [List.mem_cons] at hx
    by_cases hxa : x = a
    · subst hxa; exact upd_self ..
    · show upd (without m.cell (ids ps)) a none x = none
      rw [upd_ne _ _ hxa]
      exact if_pos (hx.resolve_left hxa)
  · rw [← h.rest x hx]
    rw [List.mem_cons, not_or] at hx
    show upd (without m.cell (ids ps)) a none x = _
    rw [upd_ne _ _ hx.1]
    exact if_neg hx.2

theorem brk_fresh (h : Rep base m a d ps) : m.brk ∉ a :: ids ps ∧ base m.brk = none := by
  have hb := h.bound m.brk (Nat.le_refl _)
  have hn : m.brk ∉ a :: ids ps := by
    intro hx
    obtain ⟨first, h1, h2⟩ := h.dev
    rw [List.mem_cons] at hx
    rcases hx with hx | hx
    · rw [← hx, hb] at h1; cases h1
    · obtain ⟨c, hc⟩ := h2.alloc _ hx; rw [hb] at hc; cases hc
  exact ⟨hn, by rw [← h.rest _ hn]; exact hb⟩

/-- Something else changes. -/
theorem outside (h : Rep base m a d ps) {t : Nat} (ht : t ∉ a :: ids ps) (c : Option Cell) (brk : Nat) (hb : ∀ x, brk ≤ x → m.brk ≤ x ∧ (x = t → c = none)) :
    Rep (upd base t c) ⟨upd m.cell t c, brk⟩ a d ps := by
  obtain ⟨first, h1, h2⟩ := h.dev
  have hne : ∀ x ∈ a :: ids ps, x ≠ t := fun x hx e => ht (e ▸ hx)
  refine ⟨⟨first, ?_, h2.frame fun x hx => upd_ne _ _ (hne x (by simp [hx]))⟩, h.nodup, ?_, ?_, ?_⟩
  · show upd m.cell t c a = _
    rw [upd_ne _ _ (hne a (by simp)), h1]
  · intro x hx
    show upd m.cell t c x = _
    by_cases hxt : x = t
    · subst hxt; rw [upd_self, upd_self]
    · rw [upd_ne _ _ hxt, upd_ne _ _ hxt, h.rest x hx]
  · intro x hx
    rw [upd_ne _ _ (hne x hx), h.fresh x hx]
  · intro x hx
    show upd m.cell t c x = none
    obtain ⟨hx1, hx2⟩ := hb x hx
    by_cases hxt : x = t
    · subst hxt; rw [upd_self, hx2 rfl]
    · rw [upd_ne _ _ hxt, h.bound x hx1]

theorem alloc (h : Rep base m a d ps) (c : Cell) : Rep (upd base m.brk (some c)) ⟨upd m.cell m.brk (some c), m.brk + 1⟩ a d ps :=
  h.outside h.brk_fresh.1 _ _ (fun x hx => ⟨by omega, fun e => by omega⟩)

theorem other (h : Rep base m a d ps) {t : Nat} {c : Cell} (ht : base t = some c) : t ∉ a :: ids ps ∧ m.cell t = some c := by
  have : t ∉ a :: ids ps := fun hx => by rw [h.fresh t hx] at ht; cases ht
  exact ⟨this, by rw [h.rest t this, ht]⟩

theorem lt_brk (h : Rep base m a d ps) {t : Nat} {c : Cell} (ht : base t = some c) : t < m.brk := by
  rcases Nat.lt_or_ge t m.brk with hlt | hge
  · exact hlt
  · have := h.bound t hge
    rw [(h.other ht).2] at this; cases this

theorem freeOther (h : Rep base m a d ps) {t : Nat} {c : Cell} (ht : base t = some c) :
    hfree (some t) m = .ok ((), ⟨upd m.cell t none, m.brk⟩) ∧ Rep (upd base t none) ⟨upd m.cell t none, m.brk⟩ a d ps :=
  ⟨hfree_ok (h.other ht).2, h.outside (h.other ht).1 _ _ (fun _ hx => ⟨hx, fun _ => rfl⟩)⟩

theorem modOther (h : Rep base m a d ps) {t : Nat} {c c' : Cell} (ht : base t = some c) {f : Cell → Option Cell} (hf : f c = some c') :
    hmod (some t) f m = .ok ((), ⟨upd m.cell t (some c'), m.brk⟩) ∧ Rep (upd base t (some c')) ⟨upd m.cell t (some c'), m.brk⟩ a d ps :=
  ⟨hmod_ok (h.other ht).2 hf, h.outside (h.other ht).1 _ _ (fun x hx => ⟨hx, fun e => by have := h.lt_brk ht; omega⟩)⟩

/-- The device's own cell changes. -/
theorem onDevice (h : Rep base m a d ps) (g : Device → Device) :
    ∃ m', hmod (some a) (onDev g) m = .ok ((), m') ∧ Rep base m' a (g d) ps ∧ m'.brk = m.brk := by
  obtain ⟨first, h1, h2⟩ := h.dev
  have hn := h.nodup
  rw [List.nodup_cons] at hn
  refine ⟨_, hmod_ok h1 rfl, ⟨⟨first, upd_self .., h2.frame fun x hx => upd_ne _ _ (fun e => hn.1 (e ▸ hx))⟩, h.nodup, ?_, h.fresh, ?_⟩, rfl⟩
  · intro x hx
    show upd m.cell a _ x = _
    rw [upd_ne _ _ (fun e => hx (by simp [e])), h.rest x hx]
  · intro x hx
    show upd m.cell a _ x = _
    rw [upd_ne, h.bound x hx]
    rintro rfl
    have := h.bound x hx
    rw [h1] at this; cases this

/-- The last peer's own cell changes. -/
theorem onLast {init : List PeerN} {x : Nat} {p : Peer} {l : List IpN} (h : Rep base m a d (init ++ [(x, p, l)])) (g : Peer → Peer) :
    ∃ m', hmod (some x) (onPeer g) m = .ok ((), m') ∧ Rep base m' a d (init ++ [(x, g p, l)]) ∧ m'.brk = m.brk := by
  obtain ⟨first, h1, h2⟩ := h.dev
  obtain ⟨⟨fi, nx, h3, h4, h5⟩, h6⟩ := h2.tail
  simp only at h3 h4 h5
  have hids : ids (init ++ [(x, g p, l)]) = ids (init ++ [(x, p, l)]) := by simp [ids_append, ids_cons]
  have hn := h.nodup
  rw [List.nodup_cons, ids_append, ids_cons] at hn
  simp only [List.mem_append, List.mem_cons, not_or] at hn
  obtain ⟨⟨hn1, hn2, hn3⟩, hn⟩ := hn
  rw [List.nodup_append, List.nodup_cons] at hn
  obtain ⟨hn4, ⟨hn5, hn6⟩, hn7⟩ := hn
  refine ⟨_, hmod_ok h3 rfl, ⟨⟨first, ?_, ?_⟩, by rw [hids]; exact h.nodup, ?_, by rw [hids]; exact h.fresh, ?_⟩, rfl⟩
  · show upd m.cell x _ a = _
    rw [upd_ne _ _ hn2, h1]
  · refine h6 _ _ (fun y hy => upd_ne _ _ (fun e => hn7 y hy x (by simp) e)) (.cons (upd_self ..) (h4.frame fun y hy => upd_ne _ _ ?_) ?_)
    · rintro rfl
      exact hn5 (List.mem_append_left _ hy)
    · cases h5; exact .nil
  · intro y hy
    rw [hids] at hy
    show upd m.cell x _ y = _
    rw [upd_ne, h.rest y hy]
    rintro rfl
    exact hy (by simp [ids_append, ids_cons])
  · intro y hy
    show upd m.cell x _ y = _
    rw [upd_ne, h.bound y hy]
    rintro rfl
    have := h.bound y hy
    rw [h3] at this; cases this

end Rep

/-! ### Any device in the heap -/

theorem DevAt.frame {f g : Nat → Option Cell} {a : Nat} {d : Device} {ps : List PeerN} (h : DevAt f a d ps) (hg : ∀ x ∈ a :: ids ps, g x = f x) : DevAt g a d ps := by
  obtain ⟨first, h1, h2⟩ := h
  exact ⟨first, by rw [hg a (by simp), h1], h2.frame fun x hx => hg x (by simp [hx])⟩

theorem DevAt.alloc {f : Nat → Option Cell} {a : Nat} {d : Device} {ps : List PeerN} (h : DevAt f a d ps) : ∀ x ∈ a :: ids ps, ∃ c, f x = some c := by
  obtain ⟨first, h1, h2⟩ := h
  intro x hx
  rw [List.mem_cons] at hx
  rcases hx with rfl | hx
  · exact ⟨_, h1⟩
  · exact h2.alloc x hx

theorem DevAt.length {m : Mem} {a : Nat} {d : Device} {ps : List PeerN} (h : DevAt m.cell a d ps) (hn : (a :: ids ps).Nodup) (hb : ∀ x, m.brk ≤ x → m.cell x = none) :
    (ids ps).length < m.brk + 2 := by
  have := nodup_bound_length hn (n := m.brk) (by
    intro x hx
    rcases Nat.lt_or_ge x m.brk with hlt | hge
    · exact hlt
    · have hb := hb x hge
      obtain ⟨c, hc⟩ := h.alloc x hx; rw [hc] at hb; cases hb)
  rw [List.length_cons] at this
  omega

/-- `free_wgdevice` frees the nodes of its device and nothing else. -/
theorem DevAt.free {m : Mem} {a : Nat} {d : Device} {ps : List PeerN} (h : DevAt m.cell a d ps) (hn : (a :: ids ps).Nodup) (hb : ∀ x, m.brk ≤ x → m.cell x = none) :
    freeDevice (some a) m = .ok ((), ⟨without m.cell (a :: ids ps), m.brk⟩) := by
  have hlen := h.length hn hb
  obtain ⟨first, h1, h2⟩ := h
  rw [List.nodup_cons] at hn
  show ((hload (some a) >>= _) m) = _
  rw [hm_bind (hload_ok h1)]
  simp only
  rw [hm_bind (freePeers_spec ps m first (m.brk + 2) h2 hn.2 hlen)]
  have ha : without m.cell (ids ps) a = some (.dev d first) := by rw [without, if_neg hn.1, h1]
  rw [hfree_ok (m := ⟨without m.cell (ids ps), m.brk⟩) ha]
  congr 3
  funext x
  simp only [upd, without, List.mem_cons]
  by_cases h1 : x = a <;> by_cases h2 : x ∈ ids ps <;> simp [h1, h2]

theorem readIps_spec : ∀ (l : List IpN) (m : Mem) (p : Ptr) (fuel : Nat), IpsAt m.cell p l → l.length < fuel → readIps fuel p m = .ok (l.map (·.2), m) := by
  intro l
  induction l with
  | nil =>
    intro m p fuel h hf
    cases h
    cases fuel with
    | zero => simp at hf
    | succ fuel => rfl
  | cons n l ih =>
    intro m p fuel h hf
    cases h with
    | @cons a v next _ h1 h2 =>
      cases fuel with
      | zero => simp at hf
      | succ fuel =>
        rw [readIps, hm_bind (hload_ok h1)]
        simp only
        rw [hm_bind (ih m next fuel h2 (by simpa using hf))]
        rfl

theorem readPeers_spec : ∀ (ps : List PeerN) (m : Mem) (p : Ptr) (fuel : Nat), PeersAt m.cell p ps → (ids ps).length < fuel →
    readPeers fuel p m = .ok (ps.map absPeer, m) := by
  intro ps
  induction ps with
  | nil =>
    intro m p fuel h hf
    cases h
    cases fuel with
    | zero => simp at hf
    | succ fuel => rfl
  | cons n ps ih =>
    intro m p fuel h hf
    cases h with
    | @cons a q first next l _ h1 h2 h3 =>
      cases fuel with
      | zero => simp at hf
      | succ fuel =>
        rw [ids_cons] at hf
        simp only [List.length_cons, List.length_append, List.length_map] at hf
        rw [readPeers, hm_bind (hload_ok h1)]
        simp only
        rw [hm_bind (readIps_spec l m first (fuel + 1) h2 (by omega)), hm_bind (ih m next fuel h3 (by omega))]
        rfl

theorem DevAt.read {m : Mem} {a : Nat} {d : Device} {ps : List PeerN} (h : DevAt m.cell a d ps) (hn : (a :: ids ps).Nodup) (hb : ∀ x, m.brk ≤ x → m.cell x = none) :
    readDevice (some a) m = .ok (absDev d ps, m) := by
  have hlen := h.length hn hb
  obtain ⟨first, h1, h2⟩ := h
  show ((hload (some a) >>= _) m) = _
  rw [hm_bind (hload_ok h1)]
  simp only
  rw [hm_bind (readPeers_spec ps m first (m.brk + 2) h2 hlen)]
  rfl

namespace Rep
variable {base : Nat → Option Cell} {m : Mem} {a : Nat} {d : Device} {ps : List PeerN}

theorem read (h : Rep base m a d ps) : readDevice (some a) m = .ok (absDev d ps, m) := DevAt.read h.dev h.nodup h.bound

theorem mem_lt_brk (h : Rep base m a d ps) {x : Nat} (hx : x ∈ a :: ids ps) : x < m.brk := by
  rcases Nat.lt_or_ge x m.brk with hlt | hge
  · exact hlt
  · have hb := h.bound x hge
    obtain ⟨c, hc⟩ := DevAt.alloc h.dev x hx; rw [hc] at hb; cases hb

/-- A cell becomes a node of the device. -/
theorem extend (h : Rep base m a d ps) {t : Nat} {c : Cell} (ht : base t = some c) {cells : Nat → Option Cell} {d' : Device} {ps' : List PeerN}
    (hdev : DevAt cells a d' ps') (hids : (ids ps').Perm (t :: ids ps)) (hrest : ∀ x, x ∉ a :: ids ps → cells x = m.cell x) :
    Rep (upd base t none) ⟨cells, m.brk⟩ a d' ps' := by
  have hto := h.other ht
  have hmem : ∀ x, x ∈ a :: ids ps' ↔ x = t ∨ x ∈ a :: ids ps := by
    intro x
    rw [List.mem_cons, hids.mem_iff, List.mem_cons, List.mem_cons]
    tauto
  refine ⟨hdev, ?_, ?_, ?_, ?_⟩
  · have hp : (a :: ids ps').Perm (t :: a :: ids ps) := (hids.cons a).trans (.swap ..)
    rw [hp.nodup_iff, List.nodup_cons]
    exact ⟨hto.1, h.nodup⟩
  · intro x hx
    rw [hmem, not_or] at hx
    rw [upd_ne _ _ hx.1, ← h.rest x hx.2]
    exact hrest x hx.2
  · intro x hx
    rw [hmem] at hx
    by_cases hxt : x = t
    · rw [hxt, upd_self]
    · rw [upd_ne _ _ hxt]
      exact h.fresh x (hx.resolve_left hxt)
  · intro x hx
    have : x ∉ a :: ids ps := fun e => by have := h.mem_lt_brk e; have : m.brk ≤ x := hx; omega
    exact (hrest x this).trans (h.bound x hx)

/-- config.c:391-395: the new allowed IP behind the last one. -/
theorem linkIp {init : List PeerN} {x : Nat} {p : Peer} {l : List IpN} (h : Rep base m a d (init ++ [(x, p, l)])) {t : Nat} {v : AllowedIP} (ht : base t = some (.ip v none)) :
    ∃ m', hLinkIp (some x) (lastId l) (some t) m = .ok ((), m') ∧ m'.brk = m.brk ∧
      Rep (upd base t none) m' a d (init ++ [(x, p, l ++ [(t, v)])]) := by
  obtain ⟨first, h1, h2⟩ := h.dev
  obtain ⟨⟨fi, nx, h3, h4, h5⟩, h6⟩ := h2.tail
  simp only at h3 h4 h5
  cases h5
  have hn := h.nodup
  have hto := h.other ht
  rw [List.nodup_cons, ids_append, ids_cons] at hn
  simp only [List.mem_append, List.mem_cons, not_or] at hn
  obtain ⟨⟨hn1, hn2, hn3⟩, hn⟩ := hn
  rw [List.nodup_append, List.nodup_cons] at hn
  obtain ⟨hn4, ⟨hn5, hn6⟩, hn7⟩ := hn
  have hids : (ids (init ++ [(x, p, l ++ [(t, v)])])).Perm (t :: ids (init ++ [(x, p, l)])) := by
    have : ids (init ++ [(x, p, l ++ [(t, v)])]) = ids (init ++ [(x, p, l)]) ++ [t] := by simp [ids, pids]
    rw [this]
    exact List.perm_append_comm
  have htx : t ≠ x := fun e => hto.1 (by simp [ids_append, ids_cons, e])
  rcases List.eq_nil_or_concat l with rfl | ⟨l0, ⟨y, w⟩, rfl⟩
  · refine ⟨_, hmod_ok h3 rfl, rfl, h.extend ht ⟨first, ?_, ?_⟩ hids ?_⟩
    · rw [upd_ne _ _ hn2, h1]
    · refine h6 _ _ (fun z hz => upd_ne _ _ (fun e => hn7 z hz x (by simp) e)) (.cons (upd_self ..) (.cons ?_ .nil) .nil)
      rw [upd_ne _ _ htx, hto.2]
    · intro z hz
      exact upd_ne _ _ (fun e => hz (by simp [ids_append, ids_cons, e]))
  · rw [List.concat_eq_append] at *
    obtain ⟨⟨n, h7, h8⟩, h9⟩ := h4.tail
    cases h8
    have hyt : y ≠ t := fun e => hto.1 (by simp [ids_append, ids_cons, ← e])
    have hyl : y ∈ (l0 ++ [(y, w)]).map (·.1) := by simp
    have hya : a ≠ y := fun e => hn3.1 (by simp [e])
    have hyx : x ≠ y := by
      rintro rfl
      exact hn5 (List.mem_append_left _ hyl)
    have hy0 : ∀ z ∈ l0.map (·.1), z ≠ y := by
      rintro z hz rfl
      rw [List.nodup_append] at hn6
      have := hn6.1
      rw [List.map_append, List.nodup_append] at this
      exact this.2.2 z hz z (by simp) rfl
    have hyi : ∀ z ∈ ids init, z ≠ y := fun z hz e => hn7 z hz y (by simp) e
    have hlast : lastId (l0 ++ [(y, w)]) = some y := by simp [lastId]
    rw [hlast]
    refine ⟨_, hmod_ok h7 rfl, rfl, h.extend ht ⟨first, ?_, ?_⟩ hids ?_⟩
    · rw [upd_ne _ _ hya, h1]
    · refine h6 _ _ (fun z hz => upd_ne _ _ (hyi z hz)) (.cons (first := fi) ?_ ?_ .nil)
      · rw [upd_ne _ _ hyx, h3]
      · rw [List.append_assoc]
        exact h9 _ _ (fun z hz => upd_ne _ _ (hy0 z hz)) (.cons (upd_self ..) (.cons (by rw [upd_ne _ _ hyt.symm, hto.2]) .nil))
    · intro z hz
      exact upd_ne _ _ (fun e => hz (by simp [ids_append, ids_cons, e]))

/-- config.c:430-434, 597-601: the new peer behind the last one. -/
theorem linkPeer (h : Rep base m a d ps) {t : Nat} {q : Peer} (ht : base t = some (.peer q none none)) :
    ∃ m', hLinkPeer (some a) (lastId ps) (some t) m = .ok ((), m') ∧ m'.brk = m.brk ∧
      Rep (upd base t none) m' a d (ps ++ [(t, q, [])]) := by
  have hto := h.other ht
  have hids : (ids (ps ++ [(t, q, [])])).Perm (t :: ids ps) := by
    have : ids (ps ++ [(t, q, [])]) = ids ps ++ [t] := by simp [ids, pids]
    rw [this]
    exact List.perm_append_comm
  have hta : t ≠ a := fun e => hto.1 (by simp [e])
  rcases List.eq_nil_or_concat ps with rfl | ⟨init, ⟨y, w, l⟩, rfl⟩
  · obtain ⟨first, h1, h2⟩ := h.dev
    refine ⟨_, hmod_ok h1 rfl, rfl, h.extend ht ⟨some t, ?_, ?_⟩ hids ?_⟩
    · exact upd_self ..
    · exact .cons (by rw [upd_ne _ _ hta, hto.2]) .nil .nil
    · intro z hz
      exact upd_ne _ _ (fun e => hz (by simp [e]))
  · rw [List.concat_eq_append] at *
    obtain ⟨first, h1, h2⟩ := h.dev
    obtain ⟨⟨fi, nx, h3, h4, h5⟩, h6⟩ := h2.tail
    simp only at h3 h4 h5
    cases h5
    have hn := h.nodup
    rw [List.nodup_cons, ids_append, ids_cons] at hn
    simp only [List.mem_append, List.mem_cons, not_or] at hn
    obtain ⟨⟨hn1, hn2, hn3⟩, hn⟩ := hn
    rw [List.nodup_append, List.nodup_cons] at hn
    obtain ⟨hn4, ⟨hn5, hn6⟩, hn7⟩ := hn
    have hty : t ≠ y := fun e => hto.1 (by simp [ids_append, ids_cons, e])
    have hlast : lastId (init ++ [(y, w, l)]) = some y := by simp [lastId]
    rw [hlast]
    refine ⟨_, hmod_ok h3 rfl, rfl, h.extend ht ⟨first, ?_, ?_⟩ hids ?_⟩
    · rw [upd_ne _ _ hn2, h1]
    · rw [List.append_assoc]
      refine h6 _ _ (fun z hz => upd_ne _ _ (fun e => hn7 z hz y (by simp) e)) (.cons (upd_self ..) (h4.frame fun z hz => upd_ne _ _ ?_) (.cons ?_ .nil .nil))
      · rintro rfl
        exact hn5 (List.mem_append_left _ hz)
      · rw [upd_ne _ _ hty, hto.2]
    · intro z hz
      exact upd_ne _ _ (fun e => hz (by simp [ids_append, ids_cons, e]))

end Rep

end WG
