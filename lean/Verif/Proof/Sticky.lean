import Verif.Spec.Sticky
/-! Proofs for C102. -/
namespace WG.Sticky
open Spec.Sticky

theorem len4 {l : List UInt8} (h : l.length = 4) : ∃ a b c d, l = [a, b, c, d] := by
  match l, h with
  | [a, b, c, d], _ => exact ⟨a, b, c, d, rfl⟩

theorem len16 {l : List UInt8} (h : l.length = 16) : ∃ a0 a1 a2 a3 a4 a5 a6 a7 a8 a9 a10 a11 a12 a13 a14 a15, l = [a0, a1, a2, a3, a4, a5, a6, a7, a8, a9, a10, a11, a12, a13, a14, a15] := by
  match l, h with
  | [a0, a1, a2, a3, a4, a5, a6, a7, a8, a9, a10, a11, a12, a13, a14, a15], _ => exact ⟨_, _, _, _, _, _, _, _, _, _, _, _, _, _, _, _, rfl⟩

theorem setAt_zero (l new : List UInt8) : setAt l 0 new = new ++ l.drop new.length := by simp [setAt]

theorem readAll_append {read : Msg → Option Datagram} {l l' : List Msg} {d d' : List Datagram} (h : readAll read l = some d) (h' : readAll read l' = some d') :
    readAll read (l ++ l') = some (d ++ d') := by
  induction l generalizing d with
  | nil => cases h; exact h'
  | cons m l ih =>
    simp only [readAll] at h
    cases hm : read m with
    | none => simp [hm] at h
    | some x =>
      cases hl : readAll read l with
      | none => simp [hm, hl] at h
      | some xs =>
        simp only [hm, hl, Option.some.injEq] at h
        subst h
        simp [readAll, hm, ih hl]

/-! ### IPv4 -/

structure Rel4 (e : Endpoint) (q : Flow) : Prop where
  name : ∃ r, e.name = q.dest ++ r
  src : ∃ r, e.src = q.src ++ q.iface ++ r
  dest : q.dest.length = 16
  slen : q.src.length = 4
  ilen : q.iface.length = 4
  fam : q.dest.take 2 = [2, 0] ∨ (q.dest = any 16 ∧ e = fresh)

theorem read_msg4 {e : Endpoint} {q : Flow} (h : Rel4 e q) {s i : List UInt8} (hs : s.length = 4) (hi : i.length = 4) (buf : List UInt8) :
    read4 (msg4 e i s buf) = some ⟨q.dest, s, i, buf⟩ := by
  obtain ⟨r, hr⟩ := h.name
  obtain ⟨s0, s1, s2, s3, rfl⟩ := len4 hs
  obtain ⟨i0, i1, i2, i3, rfl⟩ := len4 hi
  have ht : e.name.take 16 = q.dest := by rw [hr, List.take_left' h.dest]
  simp [read4, msg4, ht, h.dest, hdr4, zeros]

theorem rel4_src {e : Endpoint} {q : Flow} (h : Rel4 e q) : e.src.take 4 = q.src ∧ (e.src.drop 4).take 4 = q.iface := by
  obtain ⟨r, hr⟩ := h.src
  rw [hr, List.append_assoc]
  exact ⟨List.take_left' h.slen, by rw [List.drop_left' h.slen, List.take_left' h.ilen]⟩

theorem rel4_fam {e : Endpoint} {q : Flow} (h : Rel4 e q) (hf : q.dest.take 2 = [2, 0]) : e.name.take 2 = [2, 0] := by
  obtain ⟨r, hr⟩ := h.name
  rw [hr, List.take_append_of_le_length (by have := h.dest; omega), hf]

theorem rel4_forget {e : Endpoint} {q : Flow} (h : Rel4 e q) : Rel4 { e with src := setAt e.src 0 (zeros 8) } (v4.forget q) where
  name := h.name
  src := ⟨_, setAt_zero _ _⟩
  dest := h.dest
  slen := rfl
  ilen := rfl
  fam := h.fam.imp id fun ⟨h1, h2⟩ => ⟨h1, by rw [h2]; rfl⟩

theorem rel4_clear {e : Endpoint} {q : Flow} (h : Rel4 e q) : Rel4 (clearsrc e) (v4.forget q) := by
  rcases h.fam with hf | ⟨h1, h2⟩
  · unfold clearsrc
    rw [if_pos (rel4_fam h hf)]
    exact rel4_forget h
  · subst h2
    exact { name := ⟨zeros 12, by rw [show (v4.forget q).dest = q.dest from rfl, h1]; rfl⟩, src := ⟨zeros 8, rfl⟩, dest := h.dest, slen := rfl, ilen := rfl, fam := .inr ⟨h1, rfl⟩ }

theorem rel4_set {e : Endpoint} {q : Flow} (_h : Rel4 e q) {a : List UInt8} (ha : a.length = 16) (hf : a.take 2 = [2, 0]) : Rel4 (set e a) (v4.at_ a) := by
  have hn : (setAt e.name 0 (a.take 16)).take 2 = [2, 0] := by
    rw [setAt_zero, List.take_of_length_le (by omega : a.length ≤ 16), List.take_append_of_le_length (by omega), hf]
  unfold set clearsrc
  rw [if_pos hf, if_pos hn]
  exact { name := ⟨_, by rw [setAt_zero, List.take_of_length_le (by omega : a.length ≤ 16)]; rfl⟩, src := ⟨_, setAt_zero _ _⟩, dest := ha, slen := rfl, ilen := rfl, fam := .inl hf }

theorem receive4_packet (e : Endpoint) (junk : List UInt8) (len : Nat) {p : Packet} (h1 : p.sender.length = 16) (h2 : p.addr.length = 4) (h3 : p.iface.length = 4) (h4 : p.header.length = 4) :
    receive4 (received4 p) junk e len = (.ok (p.payload.take len), ⟨p.sender ++ e.name.drop 16, p.addr ++ p.iface ++ e.src.drop 8⟩) := by
  obtain ⟨s0, s1, s2, s3, hs⟩ := len4 h2
  obtain ⟨i0, i1, i2, i3, hi⟩ := len4 h3
  obtain ⟨g0, g1, g2, g3, hg⟩ := len4 h4
  have ht : p.sender.take 16 = p.sender := List.take_of_length_le (by omega)
  simp [receive4, received4, hs, hi, hg, setAt_zero, ht, h1, num]

theorem step4_refines {net : List Datagram → Except Nat Nat} {junk : List UInt8} {sent : List Msg} {ds : List Datagram} {e : Endpoint} {q : Flow} (h : Rel4 e q)
    (hd : readAll read4 sent = some ds) {o : Op} (ho : Fits4 o) :
    (step4 (kernel read4 net) junk sent e o).1 = (step v4 net ds q o).1 ∧
      readAll read4 (step4 (kernel read4 net) junk sent e o).2.1 = some (step v4 net ds q o).2.1 ∧ Rel4 (step4 (kernel read4 net) junk sent e o).2.2 (step v4 net ds q o).2.2 := by
  match o, ho with
  | .set a, ho => exact ⟨rfl, hd, rel4_set h ho.1 ho.2⟩
  | .clear, _ => exact ⟨rfl, hd, rel4_clear h⟩
  | .recv (.error n) len, _ => exact ⟨rfl, hd, h⟩
  | .recv (.ok p) len, ⟨h1, h2, h3, h4, h5⟩ =>
    simp only [step4, step, receive4_packet e junk len h1 h3 h4 h5]
    exact ⟨trivial, hd, { name := ⟨_, rfl⟩, src := ⟨_, rfl⟩, dest := h1, slen := h3, ilen := h4, fam := .inl h2 }⟩
  | .send payload, _ =>
    obtain ⟨hs, hi⟩ := rel4_src h
    have r1 : readAll read4 [msg4 e q.iface q.src payload] = some [v4.datagram q payload] := by
      simp only [readAll, read_msg4 h h.slen h.ilen]; rfl
    have r2 : readAll read4 [msg4 e (zeros 4) (zeros 4) payload] = some [v4.datagram (v4.forget q) payload] := by
      simp only [readAll, read_msg4 h (show (zeros 4).length = 4 from rfl) (show (zeros 4).length = 4 from rfl)]; rfl
    have a1 := readAll_append hd r1
    have a2 := readAll_append a1 r2
    have k1 : kernel read4 net (sent ++ [msg4 e q.iface q.src payload]) = net (ds ++ [v4.datagram q payload]) := by simp [kernel, a1]
    have k2 : kernel read4 net (sent ++ [msg4 e q.iface q.src payload, msg4 e (zeros 4) (zeros 4) payload]) = net (ds ++ [v4.datagram q payload] ++ [v4.datagram (v4.forget q) payload]) := by
      rw [show sent ++ [msg4 e q.iface q.src payload, msg4 e (zeros 4) (zeros 4) payload] = sent ++ [msg4 e q.iface q.src payload] ++ [msg4 e (zeros 4) (zeros 4) payload] by simp]
      simp only [kernel, a2]
    have a2' : readAll read4 (sent ++ [msg4 e q.iface q.src payload, msg4 e (zeros 4) (zeros 4) payload]) = some (ds ++ [v4.datagram q payload] ++ [v4.datagram (v4.forget q) payload]) := by
      rw [← a2]; simp
    simp only [step4, step, send4, hs, hi, k1, k2]
    cases hn : net (ds ++ [v4.datagram q payload]) with
    | ok n =>
      rw [if_neg (by simp [Stale])]
      exact ⟨rfl, a1, h⟩
    | error n =>
      by_cases h22 : n = 22
      · subst h22
        rw [if_pos (show Stale (.error 22) from rfl)]
        simp only [EINVAL, if_true]
        exact ⟨trivial, a2', rel4_forget h⟩
      · rw [if_neg (show ¬ Stale (.error n) from fun h => h22 (by cases h; rfl))]
        simp only [show EINVAL = 22 from rfl, if_neg h22]
        exact ⟨trivial, a1, h⟩

theorem rel4_fresh : Rel4 fresh v4.start where
  name := ⟨zeros 12, rfl⟩
  src := ⟨zeros 8, rfl⟩
  dest := rfl
  slen := rfl
  ilen := rfl
  fam := .inr ⟨rfl, rfl⟩

/-! ### IPv6 -/

structure Rel6 (e : Endpoint) (q : Flow) : Prop where
  name : e.name = q.dest
  src : e.src = q.src
  iface : q.iface = if q.src = any 16 then any 4 else q.dest.drop 24
  dest : q.dest.length = 28
  slen : q.src.length = 16
  fam : q.dest.take 2 = [10, 0] ∨ q.dest = any 28

theorem Rel6.ilen {e : Endpoint} {q : Flow} (h : Rel6 e q) : q.iface.length = 4 := by
  rw [h.iface]
  split
  · rfl
  · simp [h.dest]

theorem read_msg6 {e : Endpoint} {q : Flow} (h : Rel6 e q) {s i : List UInt8} (hs : s.length = 16) (hi : i.length = 4) (buf : List UInt8) :
    read6 (msg6 e s i buf) = some ⟨q.dest, s, i, buf⟩ := by
  obtain ⟨s0, s1, s2, s3, s4, s5, s6, s7, s8, s9, s10, s11, s12, s13, s14, s15, rfl⟩ := len16 hs
  obtain ⟨i0, i1, i2, i3, rfl⟩ := len4 hi
  simp [read6, msg6, h.name, h.dest, hdr6, zeros]

theorem rel6_forget {e : Endpoint} {q : Flow} (h : Rel6 e q) : Rel6 { e with src := zeros 16 } (v6.forget q) where
  name := h.name
  src := rfl
  iface := rfl
  dest := h.dest
  slen := rfl
  fam := h.fam

theorem rel6_clear {e : Endpoint} {q : Flow} (h : Rel6 e q) : Rel6 (clearsrc e) (v6.forget q) := by
  rcases h.fam with hf | h1
  · unfold clearsrc
    have hn : e.name.take 2 = [10, 0] := by rw [h.name, hf]
    rw [if_neg (by rw [hn]; decide), if_pos hn]
    exact rel6_forget h
  · unfold clearsrc
    rw [h.name, h1, if_neg (by decide), if_neg (by decide)]
    exact { name := h1.symm, src := rfl, iface := rfl, dest := h.dest, slen := rfl, fam := .inr h1 }

theorem rel6_set {e : Endpoint} {q : Flow} (h : Rel6 e q) {a : List UInt8} (ha : a.length = 28) (hf : a.take 2 = [10, 0]) : Rel6 (set e a) (v6.at_ a) := by
  have hn : setAt e.name 0 (a.take 28) = a := by
    rw [setAt_zero, List.take_of_length_le (by omega : a.length ≤ 28), ha, List.drop_eq_nil_of_le (by rw [h.name, h.dest]; decide), List.append_nil]
  have hf2 : ¬ a.take 2 = [2, 0] := by rw [hf]; decide
  have he : set e a = clearsrc { e with name := a } := by
    unfold set
    rw [if_neg hf2, if_pos hf, hn]
  rw [he]
  unfold clearsrc
  rw [if_neg (by exact hf2), if_pos (by exact hf)]
  exact { name := rfl, src := rfl, iface := rfl, dest := ha, slen := rfl, fam := .inl hf }

theorem receive6_packet (e : Endpoint) (he : e.name.length = 28) (junk : List UInt8) (len : Nat) {p : Packet} (h1 : p.sender.length = 28) (h2 : p.addr.length = 16) (h3 : p.iface.length = 4) :
    receive6 (received6 p) junk e len = (.ok (p.payload.take len), ⟨p.sender.take 24 ++ p.iface, p.addr⟩) := by
  obtain ⟨s0, s1, s2, s3, s4, s5, s6, s7, s8, s9, s10, s11, s12, s13, s14, s15, hs⟩ := len16 h2
  obtain ⟨i0, i1, i2, i3, hi⟩ := len4 h3
  have ht : p.sender.take 28 = p.sender := List.take_of_length_le (by omega)
  have hd : e.name.drop 28 = [] := List.drop_eq_nil_of_le (by omega)
  have hd' : p.sender.drop 28 = [] := List.drop_eq_nil_of_le (by omega)
  simp [receive6, received6, hs, hi, setAt_zero, ht, h1, hd, num]
  simp [setAt, hd']

theorem step6_refines {net : List Datagram → Except Nat Nat} {junk : List UInt8} {sent : List Msg} {ds : List Datagram} {e : Endpoint} {q : Flow} (h : Rel6 e q)
    (hd : readAll read6 sent = some ds) {o : Op} (ho : Fits6 o) :
    (step6 (kernel read6 net) junk sent e o).1 = (step v6 net ds q o).1 ∧
      readAll read6 (step6 (kernel read6 net) junk sent e o).2.1 = some (step v6 net ds q o).2.1 ∧ Rel6 (step6 (kernel read6 net) junk sent e o).2.2 (step v6 net ds q o).2.2 := by
  match o, ho with
  | .set a, ho => exact ⟨rfl, hd, rel6_set h ho.1 ho.2⟩
  | .clear, _ => exact ⟨rfl, hd, rel6_clear h⟩
  | .recv (.error n) len, _ => exact ⟨rfl, hd, h⟩
  | .recv (.ok p) len, ⟨h1, h2, h3, h4⟩ =>
    simp only [step6, step, receive6_packet e (by rw [h.name, h.dest]) junk len h1 h3 h4]
    have h24 : (p.sender.take 24).length = 24 := by simp [h1]
    refine ⟨trivial, hd, { name := rfl, src := rfl, iface := ?_, dest := by simp [v6, h1, h4], slen := h3, fam := .inl ?_ }⟩
    · show (if p.addr = any 16 then any 4 else p.iface) = if p.addr = any 16 then any 4 else (p.sender.take 24 ++ p.iface).drop 24
      rw [List.drop_left' h24]
    · show (p.sender.take 24 ++ p.iface).take 2 = [10, 0]
      rw [List.take_append_of_le_length (by omega), List.take_take]
      exact h2
  | .send payload, _ =>
    have hif : (if e.src ≠ zeros 16 then e.name.drop 24 else zeros 4) = q.iface := by
      rw [h.iface, h.src, h.name]
      by_cases hz : q.src = any 16
      · rw [if_pos hz, if_neg (by rw [hz]; exact fun h => h rfl)]; rfl
      · rw [if_neg hz, if_pos (by exact hz)]
    have r1 : readAll read6 [msg6 e q.src q.iface payload] = some [v6.datagram q payload] := by
      simp only [readAll, read_msg6 h h.slen h.ilen]; rfl
    have r2 : readAll read6 [msg6 e (zeros 16) (zeros 4) payload] = some [v6.datagram (v6.forget q) payload] := by
      simp only [readAll, read_msg6 h (show (zeros 16).length = 16 from rfl) (show (zeros 4).length = 4 from rfl)]; rfl
    have a1 := readAll_append hd r1
    have a2 := readAll_append a1 r2
    have k1 : kernel read6 net (sent ++ [msg6 e q.src q.iface payload]) = net (ds ++ [v6.datagram q payload]) := by simp [kernel, a1]
    have k2 : kernel read6 net (sent ++ [msg6 e q.src q.iface payload, msg6 e (zeros 16) (zeros 4) payload]) = net (ds ++ [v6.datagram q payload] ++ [v6.datagram (v6.forget q) payload]) := by
      rw [show sent ++ [msg6 e q.src q.iface payload, msg6 e (zeros 16) (zeros 4) payload] = sent ++ [msg6 e q.src q.iface payload] ++ [msg6 e (zeros 16) (zeros 4) payload] by simp]
      simp only [kernel, a2]
    have a2' : readAll read6 (sent ++ [msg6 e q.src q.iface payload, msg6 e (zeros 16) (zeros 4) payload]) = some (ds ++ [v6.datagram q payload] ++ [v6.datagram (v6.forget q) payload]) := by
      rw [← a2]; simp
    simp only [step6, step, send6, hif]
    rw [h.src] at *
    simp only [k1, k2]
    cases hn : net (ds ++ [v6.datagram q payload]) with
    | ok n =>
      rw [if_neg (by simp [Stale])]
      exact ⟨rfl, a1, h⟩
    | error n =>
      by_cases h22 : n = 22
      · subst h22
        rw [if_pos (show Stale (.error 22) from rfl)]
        simp only [EINVAL, if_true]
        exact ⟨trivial, a2', rel6_forget h⟩
      · rw [if_neg (show ¬ Stale (.error n) from fun h => h22 (by cases h; rfl))]
        simp only [show EINVAL = 22 from rfl, if_neg h22]
        exact ⟨trivial, a1, h⟩

theorem rel6_fresh : Rel6 fresh v6.start where
  name := rfl
  src := rfl
  iface := rfl
  dest := rfl
  slen := rfl
  fam := .inr rfl

end WG.Sticky
