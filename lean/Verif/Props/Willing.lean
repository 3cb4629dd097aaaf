import Verif.Props.Arrivals
import Verif.Props.Unseen
/-! # C163: what the user says about willingness and what peers get -/
namespace Saratoga

/-- Every line entered starts a command that changes or shows settings, or starts nothing. -/
def SettingsOnly (M : Machine) (es : List Event) : Prop :=
  ∀ ws ∈ commandsTyped M es, ∀ cmd, ws.head? = some cmd → (assoc cmd settingHandlers).isSome

/-- The network side of an execution in which only settings are changed is a run of its own. -/
theorem leads_settingsOnly {M : Machine} {fs : FS} {c : Cliflags} {es : List Event} {p : Program}
    (h : Leads M fs c es p) : SettingsOnly M es → ¬ p.Ended →
      (World.init fs).run M.S (netEvents es) = some p.net := by
  refine leads_induction (P := fun es p => SettingsOnly M es → ¬ p.Ended →
      (World.init fs).run M.S (netEvents es) = some p.net) (fun _ _ => rfl) ?_ h
  intro es p e p' ih hs only running
  have only' : SettingsOnly M es := fun ws hw => only ws (by
    rw [commandsTyped_append]; exact List.mem_append_left _ hw)
  rw [netEvents_append, run_append]
  rcases program_step_cases hs with ⟨a, w, rfl, _, h1, rfl⟩ | ⟨line, o, rfl, hm, rfl⟩
  · have before : ¬ p.Ended := by
      intro hm
      have hm : p.net.main = .ended := hm
      rcases step_cases h1 with ⟨_, _, h, _⟩ | ⟨_, _, h, _⟩ | ⟨_, _, _, _, _, h, _⟩ | ⟨_, _, _, _, h, _⟩ |
        ⟨_, _, h, _⟩ | ⟨_, h, _⟩ | ⟨_, h, _⟩ | ⟨_, _, h, _⟩ <;> simp_all
    rw [ih only' before]
    simp only [netEvents, List.filterMap_cons, List.filterMap_nil, Option.bind_some, World.run, h1]
  · rw [ih only' hm]
    have key : (p.enter M o line).net = p.net := by
      rcases enter_cases M o p line with ⟨e, _⟩ | ⟨cmd, args, hg, p', hc, e⟩ | ⟨e, _⟩
      · rw [e]
      · rw [e]
        have hw : cmd :: args ∈ commandsTyped M (es ++ [.typed line o]) := by
          rw [commandsTyped_append]
          refine List.mem_append_right _ ?_
          simp only [commandsTyped, hg, List.mem_singleton]
        have hsome := only _ hw cmd rfl
        unfold Program.command at hc
        cases ha : assoc cmd settingHandlers with
        | none => rw [ha] at hsome; cases hsome
        | some fn =>
          rw [ha] at hc
          cases hc
          rfl
      · rw [e] at running; exact absurd rfl running
    simp only [netEvents, List.filterMap_cons, List.filterMap_nil, Option.bind_some, World.run, key]

/-- **C163** fails, and in general: two running programs started with any two settings, whose users changed the settings
in any two ways, have the same network side - the same transfers, the same files, the same replies - if the same
happened to them on the network. -/
theorem C163_regardless (M : Machine) (fs : FS) (c c' : Cliflags) (es es' : List Event) (p p' : Program)
    (one : Leads M fs c es p) (other : Leads M fs c' es' p') (only : SettingsOnly M es) (only' : SettingsOnly M es')
    (running : ¬ p.Ended) (running' : ¬ p'.Ended) (same : netEvents es = netEvents es') : p.net = p'.net := by
  have h := leads_settingsOnly one only running
  have h' := leads_settingsOnly other only' running'
  rw [same, h'] at h
  exact (Option.some.inj h).symm

/-- What is needed to type `rxwilling` and `txwilling` at a program that does not end at the first request. -/
def willingMachine : Machine :=
  ⟨patchedSetup, [("rxwilling", ⟨"receive", "rxwilling …"⟩), ("txwilling", ⟨"send", "txwilling …"⟩)], 41, fun a => a.zone⟩

/-- A request for deletion of the file "f". -/
def deleteF : List Byte := [0x21, 0x0F, 0, 0x05, 0, 0, 0, 5, 0x66, 0]

/-- The user neither receives nor sends files. -/
def refuseAll : List Event :=
  [.typed "saratoga[0]:rxwilling off" calmReplies, .typed "saratoga[1]:txwilling off" calmReplies]

/-- What a peer asks. -/
def peerAsks (frame : List Byte) : List Event :=
  [.net (.recv ⟨.v4, ⟨0, 0⟩, frame, someone⟩), .net (.takeRx .v4 ⟨1000000000, 0⟩)]

instance (p : Program) : Decidable p.Ended := inferInstanceAs (Decidable (p.net.main = .ended))

theorem willing_shows {M : Machine} {fs : FS} {c : Cliflags} {es : List Event} {P : Program → Prop} [DecidablePred P]
    (h : (match (Program.init fs c).run M es with | some p => decide (P p) | none => false) = true) :
    ∃ p, Leads M fs c es p ∧ P p := by
  unfold Leads
  cases hr : (Program.init fs c).run M es with
  | none => rw [hr] at h; cases h
  | some p => rw [hr] at h; exact ⟨p, rfl, of_decide_eq_true h⟩

/-- **C163** fails: the user has said that files are neither received nor sent, and a peer's request to put a file is
granted, a request to get one is granted, and a request to delete one is carried out. -/
theorem C163_counterexample :
    (∃ p, Leads willingMachine tranFS shippedSettings (refuseAll ++ peerAsks putRequest) p ∧ ¬ p.Ended ∧
      p.settings.flag "rxwilling" = "no" ∧ p.settings.flag "txwilling" = "off" ∧
      p.net.transfers.map RxTran.ttype = ["put"]) ∧
    (∃ p, Leads willingMachine tranFS shippedSettings (refuseAll ++ peerAsks someRequest) p ∧ ¬ p.Ended ∧
      p.settings.flag "rxwilling" = "no" ∧ p.settings.flag "txwilling" = "off" ∧
      p.net.transfers.map RxTran.ttype = ["get"]) ∧
    (∃ p, Leads willingMachine tranFS shippedSettings (refuseAll ++ peerAsks deleteF) p ∧ ¬ p.Ended ∧
      p.settings.flag "rxwilling" = "no" ∧ p.settings.flag "txwilling" = "off" ∧
      fileExists willingMachine.S.sardir tranFS [0x66#8] = true ∧
      fileExists willingMachine.S.sardir p.net.fs [0x66#8] = false) := by
  refine ⟨willing_shows ?_, willing_shows ?_, willing_shows ?_⟩
  all_goals decide +kernel

/-- The typed lines of the counterexample change settings only, so that `C163_regardless` applies to it: with the
settings left alone the peer gets the same. -/
example : SettingsOnly willingMachine (refuseAll ++ peerAsks putRequest) ∧ SettingsOnly willingMachine (peerAsks putRequest) ∧
    netEvents (refuseAll ++ peerAsks putRequest) = netEvents (peerAsks putRequest) ∧
    commandsTyped willingMachine (refuseAll ++ peerAsks putRequest) = [["rxwilling", "off"], ["txwilling", "off"]] ∧
    ∃ p, Leads willingMachine tranFS shippedSettings (peerAsks putRequest) p ∧ ¬ p.Ended := by
  have e : commandsTyped willingMachine (refuseAll ++ peerAsks putRequest) =
      [["rxwilling", "off"], ["txwilling", "off"]] := by decide +kernel
  have e' : commandsTyped willingMachine (peerAsks putRequest) = [] := rfl
  refine ⟨?_, ?_, rfl, e, willing_shows ?_⟩
  · intro ws hw
    rw [e] at hw
    simp only [List.mem_cons, List.not_mem_nil, or_false] at hw
    rcases hw with rfl | rfl <;> rintro _ ⟨⟩ <;> decide
  · intro ws hw
    rw [e'] at hw; cases hw
  · decide +kernel

/-- **C163** What is left: with the shipped tables a running program grants nothing to any peer, whatever its user says,
willing or not; and if only settings are changed its files are as at the start, or as other programs left them. -/
theorem C163_nothing_partial (M : Machine) (hT : M.S.T = shipped) (fs : FS) (c : Cliflags) (es : List Event) (p : Program)
    (h : Leads M fs c es p) (running : ¬ p.Ended) :
    p.net.transfers = [] ∧ ¬ AskedFor p.net ∧
    (SettingsOnly M es → p.net.fs = filesLeft fs (netEvents es)) := by
  obtain ⟨acts, hr⟩ := C127_network h
  exact ⟨(C137_files_partial M.S hT fs acts p.net hr running).1, running_unasked hT ⟨acts, hr⟩ running,
    fun only => (C137_files_partial M.S hT fs _ p.net (leads_settingsOnly h only running) running).2⟩

example : exampleMachine.S.T = shipped ∧ ∃ p, Leads exampleMachine exampleFS shippedSettings exampleEvents p ∧ ¬ p.Ended :=
  ⟨rfl, willing_shows (by decide +kernel)⟩

end Saratoga
