import Verif.Proof.HeapSync
import Verif.Props.Config
/-!
C49: list memory is freed exactly once.

In the model (Model/Heap.lean) freeing or using what is not allocated is undefined (`.ub`), addresses are never used again, and each allocation of the program
may fail (`oom`), independently of all others. So "no `.ub`, and the heap is as before" says: everything allocated was freed, once, and not used afterwards.
-/
namespace WG
open Spec

/-- A heap: nothing is allocated beyond what was handed out. -/
def Mem.Sound (m : Mem) : Prop := ∀ x, m.brk ≤ x → m.cell x = none

/-- The heap of a new process. -/
def Mem.empty : Mem := ⟨fun _ => none, 0⟩

theorem Mem.empty_sound : Mem.empty.Sound := fun _ _ => rfl

namespace Props

/-- C49: `free_wgdevice` frees every node of the device (which has each node once) exactly once, and nothing else. -/
theorem c49_free {m : Mem} {a : Nat} {d : Device} {ps : List PeerN} (h : DevAt m.cell a d ps) (hn : (a :: ids ps).Nodup) (hm : m.Sound) :
    ∃ m', freeDevice (some a) m = .ok ((), m') ∧ (∀ x ∈ a :: ids ps, m.cell x ≠ none ∧ m'.cell x = none) ∧ ∀ x, x ∉ a :: ids ps → m'.cell x = m.cell x := by
  refine ⟨_, h.free hn hm, fun x hx => ⟨?_, if_pos hx⟩, fun x hx => if_neg hx⟩
  obtain ⟨c, hc⟩ := h.alloc x hx
  rw [hc]; simp

/-- NULL is not freed. -/
theorem c49_free_null (m : Mem) : freeDevice none m = .ok ((), m) := rfl

/-- The hypotheses of `c49_free` are met for devices of every shape: allocating the nodes of any device and freeing it gives the heap back. -/
theorem c49_every_device (d : Device) (m : Mem) (hm : m.Sound) :
    ∃ a m1 d' ps m2, buildDevice d m = .ok (some a, m1) ∧ DevAt m1.cell a d' ps ∧ (a :: ids ps).Nodup ∧ m1.Sound ∧
      (ids ps).length = d.peers.length + (d.peers.map (·.allowedIPs.length)).sum ∧ readDevice (some a) m1 = .ok (d, m1) ∧
      freeDevice (some a) m1 = .ok ((), m2) ∧ m2.cell = m.cell := by
  obtain ⟨a, m1, ns, h1, h2, h3⟩ := buildDevice_spec d m hm
  refine ⟨a, m1, _, ns, _, h1, h3.dev, h3.nodup, h3.bound, ?_, by rw [h3.read, h2], h3.free, rfl⟩
  rw [← h2]
  simp only [absDev]
  clear h1 h2 h3
  induction ns with
  | nil => rfl
  | cons n ns ih =>
    rw [ids_cons]
    simp only [List.length_cons, List.length_append, List.length_map, ih, List.map_cons, List.sum_cons]
    have : (absPeer n).allowedIPs.length = n.2.2.length := by simp [absPeer]
    omega

/-- Freeing twice would be noticed. -/
theorem c49_double_free {m m' : Mem} {a : Nat} {d : Device} {ps : List PeerN} (h : DevAt m.cell a d ps) (hn : (a :: ids ps).Nodup) (hm : m.Sound)
    (hf : freeDevice (some a) m = .ok ((), m')) : freeDevice (some a) m' = .ub := by
  rw [h.free hn hm] at hf
  have : without m.cell (a :: ids ps) a = none := if_pos (by simp)
  cases hf
  simp only [freeDevice]
  rw [hm_bind_def]
  simp [hload, this]

/-- C49, `wg set`: for all arguments, files, answers of the resolver, and whichever allocations fail, nothing is freed twice or used after it was freed, and at
the end everything is freed. What is done is what the model without memory says, unless an allocation failed; then the command fails and nothing is sent.
(`exit(1)` is in `parse_dns_retries`; the system frees what is left.) -/
theorem c49_set (oom : Nat → Bool) (env : Env) (ipc : Ipc) (argv : List CStr) :
    hSetMain oom env ipc argv .empty ≠ .ub ∧
    (∀ st calls m, hSetMain oom env ipc argv .empty = .ok ((st, calls), m) →
      (∀ x, m.cell x = none) ∧ (setMain env ipc argv = ⟨.ok st, calls⟩ ∨ (∃ n, oom n = true) ∧ st = 1 ∧ ∀ d, .set d ∉ calls)) ∧
    (hSetMain oom env ipc argv .empty = .exit1 → setMain env ipc argv = ⟨.ok 1, []⟩) ∧
    (hSetMain oom env ipc argv .empty = .running → setMain env ipc argv = ⟨.running, []⟩) ∧
    hSetMain oom env ipc argv .empty ≠ .fail := by
  obtain ⟨h1, h2⟩ := hSetMain_spec oom env ipc argv .empty Mem.empty_sound
  refine ⟨h2, fun st calls m h => ?_, fun h => ?_, fun h => ?_, fun h => ?_⟩
  · rw [h] at h1
    exact ⟨fun x => congrFun h1.1 x, h1.2⟩
  · rw [h] at h1; exact h1
  · rw [h] at h1; exact h1
  · rw [h] at h1; exact h1

theorem send_not_ub (ipc : Ipc) (d : Device) : (sendDevice ipc d).end_ ≠ .ub := by
  unfold sendDevice
  split <;> simp

/-- The only way to undefined behaviour. -/
theorem setconf_ub (env : Env) (sort : List PubkeyOrigin → List PubkeyOrigin) (ipc : Ipc) (argv : List CStr) (h : (setconfMain env sort ipc argv).end_ = .ub) :
    ∃ name, ipc.get name = (0, none) := by
  match argv with
  | [] => simp [setconfMain] at h
  | [_] => simp [setconfMain] at h
  | [_, _] => simp [setconfMain] at h
  | _ :: _ :: _ :: _ :: _ => simp [setconfMain] at h
  | [cmd, iface, path] =>
    have hne := c14_read_safe env (cmd = b!"addconf") path
    unfold setconfMain at h
    simp only at h
    cases hr : readConfigFile env (cmd = b!"addconf") path with
    | ub => exact absurd hr hne
    | fail => rw [hr] at h; simp at h
    | exit1 => rw [hr] at h; simp at h
    | running => rw [hr] at h; simp at h
    | ok d =>
      rw [hr] at h
      simp only at h
      by_cases hs : cmd = b!"syncconf"
      · rw [if_pos hs] at h
        unfold syncConf at h
        by_cases hp : d.peers = []
        · rw [if_pos hp] at h
          exact absurd h (send_not_ub _ _)
        · rw [if_neg hp] at h
          simp only at h
          cases hg : ipc.get (copyName iface) with
          | mk code dev =>
            rw [hg] at h
            rcases code with (_ | n) | n
            · cases dev with
              | none => exact ⟨_, hg⟩
              | some r =>
                exfalso
                revert h
                show ¬ ((match (if r.peers = [] then (Res.ok { d with name := copyName iface }, [IpcCall.get (copyName iface)])
                    else (.ok (syncPeers sort { d with name := copyName iface } r), [.get (copyName iface)]) : Res Device × List IpcCall) with
                  | (.ok d, calls) => (⟨(sendDevice ipc d).end_, calls ++ (sendDevice ipc d).calls⟩ : Run)
                  | (.ub, calls) => ⟨.ub, calls⟩
                  | (_, calls) => ⟨.ok 1, calls⟩).end_ = .ub)
                split
                · rename_i heq; exact send_not_ub _ _
                · rename_i heq; revert heq; split <;> simp
                · simp
            · cases dev <;> cases h
            · cases dev <;> cases h
      · rw [if_neg hs] at h
        exact absurd h (send_not_ub _ _)

/-- C49, `wg setconf`, `addconf`, `syncconf`: the same, for all files; the only undefined behaviour is that of an `ipc_get_device` that returns 0 and no device. -/
theorem c49_setconf (oom : Nat → Bool) (env : Env) (sort : List PubkeyOrigin → List PubkeyOrigin) (ipc : Ipc) (argv : List CStr) :
    (hSetconfMain oom env sort ipc argv .empty = .ub → ∃ name, ipc.get name = (0, none)) ∧
    (∀ st calls m, hSetconfMain oom env sort ipc argv .empty = .ok ((st, calls), m) →
      (∀ x, m.cell x = none) ∧ (setconfMain env sort ipc argv = ⟨.ok st, calls⟩ ∨ (∃ n, oom n = true) ∧ st = 1 ∧ ∀ d, .set d ∉ calls)) ∧
    (hSetconfMain oom env sort ipc argv .empty = .exit1 → setconfMain env sort ipc argv = ⟨.ok 1, []⟩) ∧
    (hSetconfMain oom env sort ipc argv .empty = .running → setconfMain env sort ipc argv = ⟨.running, []⟩) ∧
    hSetconfMain oom env sort ipc argv .empty ≠ .fail := by
  have h1 := hSetconfMain_spec oom env sort ipc argv .empty Mem.empty_sound
  refine ⟨fun h => ?_, fun st calls m h => ?_, fun h => ?_, fun h => ?_, fun h => ?_⟩
  · rw [h] at h1
    exact setconf_ub env sort ipc argv h1
  · rw [h] at h1
    exact ⟨fun x => congrFun h1.1 x, h1.2⟩
  · rw [h] at h1; exact h1
  · rw [h] at h1; exact h1
  · rw [h] at h1; exact h1

/-- With enough memory the two models do the same, and all memory is freed. -/
theorem c49_refines (env : Env) (sort : List PubkeyOrigin → List PubkeyOrigin) (ipc : Ipc) (argv : List CStr) (st : Nat) (calls : List IpcCall) (m : Mem) :
    (hSetMain (fun _ => false) env ipc argv .empty = .ok ((st, calls), m) → setMain env ipc argv = ⟨.ok st, calls⟩ ∧ ∀ x, m.cell x = none) ∧
    (hSetconfMain (fun _ => false) env sort ipc argv .empty = .ok ((st, calls), m) → setconfMain env sort ipc argv = ⟨.ok st, calls⟩ ∧ ∀ x, m.cell x = none) := by
  constructor
  · intro h
    obtain ⟨h1, h2⟩ := (c49_set (fun _ => false) env ipc argv).2.1 st calls m h
    exact ⟨h2.resolve_right (by simp), h1⟩
  · intro h
    obtain ⟨h1, h2⟩ := (c49_setconf (fun _ => false) env sort ipc argv).2.1 st calls m h
    exact ⟨h2.resolve_right (by simp), h1⟩

/-- Status, number of calls, number of allocations tried, and number of cells left after `wg set`. -/
def heapRun (oom : Nat → Bool) (argv : List CStr) : Option (Nat × Nat × Nat × Nat) :=
  match hSetMain oom stdEnv ⟨fun _ => (0, none), fun _ => 0⟩ (b!"set" :: b!"wg0" :: argv) .empty with
  | .ok ((st, calls), m) => some (st, calls.length, m.brk, ((List.range m.brk).filter fun x => (m.cell x).isSome).length)
  | _ => none

-- runs end, and what they allocated is given back: when all goes well, when an allocation fails, when an argument is wrong
example : heapRun (fun _ => false) [b!"peer", b!"AQIDBAUGBwgJCgsMDQ4PEBESExQVFhcYGRobHB0eHyA=", b!"allowed-ips", b!"10.0.0.1/8"] = some (0, 1, 6, 0) := by decide +kernel
example : heapRun (fun n => n == 5) [b!"peer", b!"AQIDBAUGBwgJCgsMDQ4PEBESExQVFhcYGRobHB0eHyA=", b!"allowed-ips", b!"10.0.0.1/8"] = some (1, 0, 6, 0) := by decide +kernel
example : heapRun (fun _ => false) [b!"peer", b!"AQIDBAUGBwgJCgsMDQ4PEBESExQVFhcYGRobHB0eHyA=", b!"allowed-ips", b!"10.0.0.1/99"] = some (1, 0, 6, 0) := by decide +kernel

end Props
end WG
