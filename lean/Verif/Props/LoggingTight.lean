import Verif.Props.ConnLogging

/-! C122 from the creation of the logger on. -/

namespace Modbus

namespace Logs

/-- Loggers keep their sinks, managers their loggers. -/
structure Stays (v v' : Logs) : Prop where
  heap : ∀ (i : Nat) (g : SpdLogger), v.heap[i]? = some g → ∃ g', v'.heap[i]? = some g' ∧ g'.sinks = g.sinks
  mgrs : ∀ (m i : Nat), v.mgrs[m]? = some i → v'.mgrs[m]? = some i

theorem Stays.refl (v : Logs) : Stays v v := ⟨fun _ g h => ⟨g, h, rfl⟩, fun _ _ h => h⟩

theorem Stays.trans {a b c : Logs} (h : Stays a b) (h' : Stays b c) : Stays a c := by
  refine ⟨fun i g h1 => ?_, fun i g h1 => h'.mgrs i g (h.mgrs i g h1)⟩
  obtain ⟨g1, h2, h3⟩ := h.heap i g h1
  obtain ⟨g2, h4, h5⟩ := h'.heap i g1 h2
  exact ⟨g2, h4, h5.trans h3⟩

theorem Stays.setLevel (v : Logs) (i : Nat) (l : SpdLevel) : Stays v (v.setLevel i l) := by
  refine ⟨fun j g hj => ?_, fun _ _ h => h⟩
  simp only [Logs.setLevel, List.getElem?_modify, hj]
  by_cases he : i = j
  · simp [he]
  · simp [he]

theorem Stays.more {v v' : Logs} (gs : List SpdLogger) (is : List Nat) (hh : v'.heap = v.heap ++ gs) (hm : v'.mgrs = v.mgrs ++ is) : Stays v v' :=
  ⟨fun _ g h => ⟨g, by rw [hh]; exact get_append h, rfl⟩, fun _ _ h => by rw [hm]; exact get_append h⟩

theorem stays_step (v : Logs) (op : Op) : Stays v (v.step op) := by
  cases op with
  | own name level sinks => exact .more [_] [] rfl (by simp [step, alloc])
  | setLevel i level =>
    simp only [step]
    split
    · exact .refl v
    · split
      · exact .setLevel v i _
      · exact .refl v
  | console name level sink => exact .more [_] [] rfl (by simp [step, alloc])
  | null name => exact .more [_] [] rfl (by simp [step, alloc])
  | custom i level =>
    simp only [step]
    split
    · exact .refl v
    · split
      · exact .setLevel v i _
      · exact .refl v
  | manager i =>
    simp only [step]
    split
    · exact .more [] [i] (by simp) rfl
    · exact .refl v
  | client m name level =>
    simp only [step]
    split
    · exact .refl v
    · split
      · exact .refl v
      · exact .more [_, _] [] rfl (by simp)
  | server m name level =>
    simp only [step]
    split
    · exact .refl v
    · split
      · exact .refl v
      · exact .more [_] [] rfl (by simp)
  | session c =>
    simp only [step]
    split
    · split
      · exact .refl v
      · exact .more [_] [] rfl (by simp [alloc])
    · exact .refl v
  | write c t =>
    simp only [step]
    split
    · exact .refl v
    · split
      · exact .refl v
      · unfold write
        split
        · exact .refl v
        · split
          · exact ⟨fun _ g h => ⟨g, h, rfl⟩, fun _ _ h => h⟩
          · exact .refl v

theorem stays_run (ops : List Op) : ∀ v : Logs, Stays v (v.run ops) := by
  induction ops with
  | nil => exact fun v => .refl v
  | cons op ops ih => exact fun v => (stays_step v op).trans (ih (v.step op))

end Logs

namespace Spec

/-- The call makes a logger that writes to these sinks. -/
inductive Makes : Logs.Op → List Nat → Prop
  | own (name : String) (level : SpdLevel) (sinks : List Nat) : Makes (.own name level sinks) sinks
  | console (name : String) (level : LogLevel) (sink : Nat) : Makes (.console name level sink) [sink]
  | null (name : String) : Makes (.null name) []

end Spec

namespace Props

open Spec

theorem made {op : Logs.Op} {sinks : List Nat} (h : Makes op sinks) (v : Logs) : ∃ g, (v.step op).heap[v.heap.length]? = some g ∧ g.sinks = sinks := by
  cases h <;> simp [Logs.step, Logs.alloc]

theorem made_manager {op : Logs.Op} {sinks : List Nat} (h : Makes op sinks) (pre mid mid2 : List Logs.Op) (n m : Nat) (hn : n = (Logs.init.run pre).heap.length)
    (hm : m = (Logs.init.run (pre ++ op :: mid)).mgrs.length) :
    ∃ i g, (Logs.init.run (pre ++ op :: mid ++ .manager n :: mid2)).mgrs[m]? = some i ∧
      (Logs.init.run (pre ++ op :: mid ++ .manager n :: mid2)).heap[i]? = some g ∧ g.sinks = sinks := by
  obtain ⟨g, h1, h2⟩ := made h (Logs.init.run pre)
  obtain ⟨g1, h3, h4⟩ := (Logs.stays_run mid _).heap _ _ h1
  rw [← Logs.run_cons, ← Logs.run_append, ← hn] at h3
  have hlt : n < (Logs.init.run (pre ++ op :: mid)).heap.length := by
    rcases Nat.lt_or_ge n (Logs.init.run (pre ++ op :: mid)).heap.length with h5 | h5
    · exact h5
    · rw [List.getElem?_eq_none h5] at h3; cases h3
  have h5 : (Logs.init.run (pre ++ op :: mid)).step (.manager n) = { Logs.init.run (pre ++ op :: mid) with mgrs := (Logs.init.run (pre ++ op :: mid)).mgrs ++ [n] } := by
    simp only [Logs.step, if_pos hlt]
  have hs := Logs.stays_run mid2 ((Logs.init.run (pre ++ op :: mid)).step (.manager n))
  have h6 := hs.mgrs m n (by rw [h5]; simp [hm])
  obtain ⟨g2, h7, h8⟩ := hs.heap n g1 (by rw [h5]; exact h3)
  rw [← Logs.run_cons, ← Logs.run_append] at h6 h7
  exact ⟨n, g2, h6, h7, h8.trans (h4.trans h2)⟩

/-- C122. From the creation of the logger on: the user makes a logger (their own, a console logger or a null logger), gives it to a manager, and has this create
a client channel.  Whatever happens before, in between and afterwards, the lines of the channel and of its connection are printed on the sinks of that logger,
under the name of the channel, if the level asked for shows lines of their weight, and otherwise nowhere. -/
theorem C122_client_printed (pre mid mid2 post : List Logs.Op) (op : Logs.Op) (sinks : List Nat) (h : Makes op sinks) (n : Nat)
    (hn : n = (Logs.init.run pre).heap.length) (m : Nat) (hm : m = (Logs.init.run (pre ++ op :: mid)).mgrs.length) (name : String) (level : LogLevel) (c : Nat)
    (hc : c = (Logs.init.run (pre ++ op :: mid ++ .manager n :: mid2)).chans.length) (v : Logs)
    (hv : v = Logs.init.run (pre ++ op :: mid ++ .manager n :: mid2 ++ .client m name level :: post)) :
    (∀ l : CLine, (v.step (.write c (.channel l))).out =
      v.out ++ if shows level (CLine.weight l) then sinks.map (fun s => ⟨s, name, l.level, .channel l⟩) else []) ∧
    (∀ l : TLine, (v.step (.write c (.connection l))).out =
      v.out ++ if shows level (TLine.weight l) then sinks.map (fun s => ⟨s, name ++ " - Connection", l.level, .connection l⟩) else []) := by
  obtain ⟨i, g, h1, h2, rfl⟩ := made_manager h pre mid mid2 n m hn hm
  obtain ⟨h3, h4⟩ := C122_client_level _ post m i g name level h1 h2 v hv c hc
  refine ⟨fun l => ?_, fun l => ?_⟩
  · rw [h3, shows_client]
  · rw [h4, shows_conn]

/-- C122. The same for servers. -/
theorem C122_server_printed (pre mid mid2 post : List Logs.Op) (op : Logs.Op) (sinks : List Nat) (h : Makes op sinks) (n : Nat)
    (hn : n = (Logs.init.run pre).heap.length) (m : Nat) (hm : m = (Logs.init.run (pre ++ op :: mid)).mgrs.length) (name : String) (level : LogLevel) (c : Nat)
    (hc : c = (Logs.init.run (pre ++ op :: mid ++ .manager n :: mid2)).chans.length) (v : Logs)
    (hv : v = Logs.init.run (pre ++ op :: mid ++ .manager n :: mid2 ++ .server m name level :: post)) :
    (∀ l : SLine, (v.step (.write c (.server l))).out =
      v.out ++ if shows level (SLine.weight l) then sinks.map (fun s => ⟨s, name ++ " - Server", l.level, .server l⟩) else []) ∧
    (∀ l : ALine, (v.step (.write c (.served l))).out =
      v.out ++ if shows level (ALine.weight l) then sinks.map (fun s => ⟨s, name ++ " - Server", l.level, .served l⟩) else []) := by
  obtain ⟨i, g, h1, h2, rfl⟩ := made_manager h pre mid mid2 n m hn hm
  obtain ⟨h3, h4⟩ := C122_server_level _ post m i g name level h1 h2 v hv c hc
  refine ⟨fun l => ?_, fun l => ?_⟩
  · rw [h3, shows_server]
  · rw [h4, shows_served]

/- A console logger at level error, a client channel at level warning: a timeout is printed, a response is not. -/
example : (Logs.init.run ([.null "x", .console "log" .error 5, .manager 1, .client 0 "c" .warn, .write 0 (.channel (.timeout 1 2)), .write 0 (.channel (.response 1 3))])).out =
    [⟨5, "c", .warn, .channel (.timeout 1 2)⟩] := by decide +kernel

end Props

end Modbus
