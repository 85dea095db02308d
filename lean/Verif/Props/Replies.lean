import Verif.Props.Mcp

/-!
# What a reply of the server says

C87: whatever happened before (forced requests, changes of the files by other programs), a reply without
warning means that the server now serves what is on the disk, and any other reply means that it serves
what it served before.
-/

namespace Firm
open Spec

/-- C87: after a request that was answered with success the state is the build of the files on disk. The
state before the request is arbitrary. -/
theorem C87_success (H : Host) (hws : ∀ n ∈ H.ws, ValidName n) (order : Workspace → Workspace)
    (ho : ∀ w, (order w).Perm w) (s : Server) (hd : WellFormed s.disk) (r : Request)
    (h : (s.handle H order r).2 = .success) :
    WellFormed (s.handle H order r).1.disk ∧ Serves H (s.handle H order r).1 := by
  cases r with
  | write path content force =>
    rw [Server.handle] at h ⊢
    unfold writeSource at h ⊢
    cases hv : validateAndWrite H s.disk path content with
    | mk d o =>
      obtain ⟨h1, _, _⟩ := validateAndWrite_spec hd hws hv
      rw [hv] at h
      cases o with
      | none => cases h
      | some original =>
        dsimp only at h ⊢
        cases hr : rebuild H order d with
        | ok st => exact ⟨h1, rebuild_serves h1 hws ho hr⟩
        | error err =>
          rw [hr] at h
          cases force <;> cases h
  | delete path force =>
    rw [Server.handle] at h ⊢
    unfold deleteSource at h ⊢
    cases hv : deleteExecute s.disk H.ws path with
    | none => rw [hv] at h; cases h
    | some r =>
      obtain ⟨d, original⟩ := r
      obtain ⟨h1, _⟩ := deleteExecute_spec hd hv
      rw [hv] at h
      dsimp only at h ⊢
      cases hr : rebuild H order d with
      | ok st => exact ⟨h1, rebuild_serves h1 hws ho hr⟩
      | error err =>
        rw [hr] at h
        cases force <;> cases h
  | replace path old new all force =>
    rw [Server.handle] at h ⊢
    unfold replaceSource at h ⊢
    cases hx : replaceExecute s.disk H.ws path old new all with
    | none => rw [hx] at h; cases h
    | some r =>
      obtain ⟨content, k⟩ := r
      rw [hx] at h
      dsimp only at h ⊢
      cases hv : validateAndWrite H s.disk path content with
      | mk d o =>
        obtain ⟨h1, _, _⟩ := validateAndWrite_spec hd hws hv
        rw [hv] at h
        cases o with
        | none => cases h
        | some original =>
          dsimp only at h ⊢
          cases hr : rebuild H order d with
          | ok st => exact ⟨h1, rebuild_serves h1 hws ho hr⟩
          | error err =>
            rw [hr] at h
            cases force <;> cases h
  | add p =>
    rw [Server.handle] at h ⊢
    unfold addEntityTool at h ⊢
    cases hx : addExecute H s p with
    | mk d ok =>
      obtain ⟨h1, _⟩ := addExecute_spec hd hws hx
      rw [hx] at h
      cases ok with
      | false => cases h
      | true =>
        dsimp only at h ⊢
        cases hr : rebuild H order d with
        | ok st => exact ⟨h1, rebuild_serves h1 hws ho hr⟩
        | error err => rw [hr] at h; cases h
  | build =>
    rw [Server.handle] at h ⊢
    unfold buildTool at h ⊢
    cases hr : rebuild H order s.disk with
    | ok st => exact ⟨hd, rebuild_serves hd hws ho hr⟩
    | error err => rw [hr] at h; cases h

/-- C87: after any other reply the server serves what it served before; a warning means that the files now
on the disk do not build. -/
theorem C87_otherwise (H : Host) (order : Workspace → Workspace) (s : Server) (r : Request) :
    ((s.handle H order r).2 ≠ .success → (s.handle H order r).1.state = s.state) ∧
    ((s.handle H order r).2 = .warning → ∀ st, rebuild H order (s.handle H order r).1.disk ≠ .ok st) := by
  cases r with
  | write path content force =>
    rw [Server.handle]
    unfold writeSource
    cases hv : validateAndWrite H s.disk path content with
    | mk d o =>
      cases o with
      | none => exact ⟨fun _ => rfl, fun h => by cases h⟩
      | some original =>
        dsimp only
        cases hr : rebuild H order d with
        | ok st => exact ⟨fun h => absurd rfl h, fun h => by cases h⟩
        | error err =>
          cases force with
          | true => exact ⟨fun _ => rfl, fun _ st h => by dsimp only at h; rw [if_pos rfl, hr] at h; cases h⟩
          | false => exact ⟨fun _ => rfl, fun h => by cases h⟩
  | delete path force =>
    rw [Server.handle]
    unfold deleteSource
    cases hv : deleteExecute s.disk H.ws path with
    | none => exact ⟨fun _ => rfl, fun h => by cases h⟩
    | some r =>
      obtain ⟨d, original⟩ := r
      dsimp only
      cases hr : rebuild H order d with
      | ok st => exact ⟨fun h => absurd rfl h, fun h => by cases h⟩
      | error err =>
        cases force with
        | true => exact ⟨fun _ => rfl, fun _ st h => by dsimp only at h; rw [if_pos rfl, hr] at h; cases h⟩
        | false => exact ⟨fun _ => rfl, fun h => by cases h⟩
  | replace path old new all force =>
    rw [Server.handle]
    unfold replaceSource
    cases hx : replaceExecute s.disk H.ws path old new all with
    | none => exact ⟨fun _ => rfl, fun h => by cases h⟩
    | some r =>
      obtain ⟨content, k⟩ := r
      dsimp only
      cases hv : validateAndWrite H s.disk path content with
      | mk d o =>
        cases o with
        | none => exact ⟨fun _ => rfl, fun h => by cases h⟩
        | some original =>
          dsimp only
          cases hr : rebuild H order d with
          | ok st => exact ⟨fun h => absurd rfl h, fun h => by cases h⟩
          | error err =>
            cases force with
            | true => exact ⟨fun _ => rfl, fun _ st h => by dsimp only at h; rw [if_pos rfl, hr] at h; cases h⟩
            | false => exact ⟨fun _ => rfl, fun h => by cases h⟩
  | add p =>
    rw [Server.handle]
    unfold addEntityTool
    cases hx : addExecute H s p with
    | mk d ok =>
      cases ok with
      | false => exact ⟨fun _ => rfl, fun h => by cases h⟩
      | true =>
        dsimp only
        cases hr : rebuild H order d with
        | ok st => exact ⟨fun h => absurd rfl h, fun h => by cases h⟩
        | error err => exact ⟨fun _ => rfl, fun _ st h => by dsimp only at h; rw [hr] at h; cases h⟩
  | build =>
    rw [Server.handle]
    unfold buildTool
    cases hr : rebuild H order s.disk with
    | ok st => exact ⟨fun h => absurd rfl h, fun h => by cases h⟩
    | error err => exact ⟨fun _ => rfl, fun h => by cases h⟩

/-- A request with force that breaks the build is answered with a warning, and the next `build` with an
error; after the file has been deleted, the reply is success again. -/
example : WellFormed exServer.disk ∧
    (exServer.handle exHost id (.write "c.firm".toList "X".toList true)).2 = .warning ∧
    ((exServer.handle exHost id (.write "c.firm".toList "X".toList true)).1.handle exHost id .build).2 = .error ∧
    ((exServer.handle exHost id (.write "c.firm".toList "X".toList true)).1.handle exHost id
      (.delete "c.firm".toList false)).2 = .success :=
  ⟨exDisk_wf, by decide +kernel⟩

end Firm
