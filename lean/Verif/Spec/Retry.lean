/- Independent vocabulary for C134: the run after an interrupted one. -/
import Verif.Spec.Rollback

namespace Pkgr.Spec
open Pkgr

/-- The listing `names` of the library mentions every directory in it. -/
def ListsAll (st : Fs) (lib : Path) (names : List Str) : Prop := ∀ n, st (lib ++ [n]) = some .dir → n ∈ names

/-- Every directory of the library that describes a package bears its name, or the name of its backup. -/
def NamedRight (parse : Str → Option Desc) (st : Fs) (lib : Path) : Prop :=
  ∀ n d, described parse st lib n = some d → n = d.package ∨ n = backupName d.package

/-- One run of `pkgr install` on the library in the state `fs`, with the packages it finds there, that is interrupted in the
state `st` before it begins to delete backups; no rename that sets a package aside fails (anything else may). -/
structure InterruptedRun (parse : Str → Option Desc) (lib : Path) (fs st : Fs) where
  env : RunEnv
  cfg : RunCfg
  plan : InstallPlan
  listed : List Str
  lib_eq : cfg.lib = lib
  lists : ListsAll fs lib listed
  behaves : Behaves env lib plan
  names : GoodNames plan
  planOK : PlanOK plan (getPriorInstalled parse fs lib listed)
  exists_ : plan.createLibrary = false
  tags : TagsOK env.disk lib (members plan)
  state : st ∈ (env.body cfg plan (getPriorInstalled parse fs lib listed) { fs := fs }).1.states

/-- Any number of such runs, one after the other; the settings, the plans and the surroundings may change in between. -/
inductive Interruptions (parse : Str → Option Desc) (lib : Path) (fs : Fs) : Fs → Prop where
  | none : Interruptions parse lib fs fs
  | more {mid st : Fs} : Interruptions parse lib fs mid → InterruptedRun parse lib mid st → Interruptions parse lib fs st

/-- An installed package in order: an ordinary name, a directory that describes it, no backup. -/
structure InstalledOK (parse : Str → Option Desc) (lib : Path) (fs : Fs) (p : Str) : Prop where
  plain : PlainName p
  noLock : ¬ IsLock p
  noOld : ¬ (s%"__OLD__") <+: p
  dir : fs (lib ++ [p]) = some .dir
  desc : ∃ d, described parse fs lib p = some d ∧ d.package = p
  noBackup : Gone lib fs (backupName p)

/-- The package is as it was in `fs`: at its place (and there is no backup) or in its backup. -/
def Kept (lib : Path) (fs st : Fs) (p : Str) : Prop := (Intact lib fs st p ∧ Gone lib st (backupName p)) ∨ Saved lib fs st p

end Pkgr.Spec
