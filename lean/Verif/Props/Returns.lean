import Verif.Proofs.Mute
import Verif.Props.Run
import Verif.Props.Results
import Verif.Proofs.GraphUse

/-
C101: what a flow returns that ends without an explicit return.
-/

namespace Flow

open Spec

variable {env : Env} {c : RunCfg}

/-- What the outputs declared as `outs` (name and default) require of `data`, when the value of an attribute is `attrs`. -/
structure Spec.OutputsFrom (outs : AMap String Val) (attrs : String → Option Val) (data : AMap String Val) : Prop where
  undeclared : ∀ k, k ∉ outs.keys → AMap.get? data k = none
  plain : ∀ k, AMap.get? outs k = some .null → AMap.get? data k = attrs k
  default : ∀ k v, AMap.get? outs k = some v → v ≠ .null → AMap.get? data k = some v

/-- The step of the loop in `GetReturnData`, for one declared output. -/
def addOutput (attrs m : AMap String Val) (p : String × Val) : AMap String Val :=
  let m1 := match AMap.get? attrs p.1 with
    | some v => m.set p.1 v
    | none => m
  match p.2 with
  | .null => m1
  | v => m1.set p.1 v

theorem addOutput_other (attrs m : AMap String Val) (p : String × Val) {k : String} (h : p.1 ≠ k) :
    AMap.get? (addOutput attrs m p) k = AMap.get? m k := by
  have h1 : AMap.get? (match AMap.get? attrs p.1 with | some v => m.set p.1 v | none => m) k = AMap.get? m k := by
    split
    · exact AMap.get?_set_ne _ _ h
    · rfl
  unfold addOutput
  dsimp only
  split
  · exact h1
  · exact (AMap.get?_set_ne _ _ h).trans h1

/-- A default takes the place of the value of the attribute. -/
def overridden (attrs : AMap String Val) (k : String) : Val → Option Val
  | .null => AMap.get? attrs k
  | v => some v

theorem overridden_some (attrs : AMap String Val) (k : String) {v : Val} (h : v ≠ .null) : overridden attrs k v = some v := by
  cases v with
  | null => exact absurd rfl h
  | _ => rfl

theorem addOutput_self (attrs m : AMap String Val) (k : String) (v : Val) (hm : AMap.get? m k = none) :
    AMap.get? (addOutput attrs m (k, v)) k = overridden attrs k v := by
  have h1 : AMap.get? (match AMap.get? attrs k with | some v => m.set k v | none => m) k = AMap.get? attrs k := by
    split
    · rename_i w hw; rw [AMap.get?_set_self, hw]
    · rename_i hw; rw [hm, hw]
  unfold addOutput
  dsimp only
  cases v with
  | null => exact h1
  | _ => exact AMap.get?_set_self _ _ _

theorem addOutputs_other (attrs : AMap String Val) {k : String} : ∀ (outs m : AMap String Val), k ∉ outs.keys →
    AMap.get? (outs.foldl (addOutput attrs) m) k = AMap.get? m k
  | [], _, _ => rfl
  | p :: ps, m, h => by
    have h1 : p.1 ≠ k := fun hc => h (by rw [← hc]; exact .head _)
    rw [List.foldl_cons, addOutputs_other attrs ps _ (fun hc => h (.tail _ hc)), addOutput_other _ _ _ h1]

theorem addOutputs_declared (attrs : AMap String Val) {k : String} {v : Val} : ∀ (outs m : AMap String Val), outs.keys.Nodup →
    AMap.get? m k = none → AMap.get? outs k = some v →
    AMap.get? (outs.foldl (addOutput attrs) m) k = overridden attrs k v
  | [], _, _, _, h => by cases h
  | p :: ps, m, hn, hm, h => by
    obtain ⟨a, w⟩ := p
    rw [List.foldl_cons]
    have hn' : a ∉ AMap.keys ps ∧ (AMap.keys ps).Nodup := List.nodup_cons.1 hn
    by_cases hk : a = k
    · subst hk
      have hw : w = v := by
        have h2 : AMap.get? ((a, w) :: ps) a = some w := by simp [AMap.get?]
        exact Option.some.inj (h2.symm.trans h)
      subst hw
      rw [addOutputs_other attrs ps _ hn'.1]
      exact addOutput_self attrs m a w hm
    · refine addOutputs_declared attrs ps _ hn'.2 ?_ ?_
      · rw [addOutput_other _ _ _ hk]; exact hm
      · have h2 : AMap.get? ((a, w) :: ps) k = AMap.get? ps k := by simp [AMap.get?, hk]
        exact h2.symm.trans h

theorem fixReturnData_none {I : Inst} (hr : I.returnData = none) (ho : I.defn.hasOutputs = true) :
    I.fixReturnData.returnData = some (I.defn.outputs.foldl (addOutput I.attrs) []) := by
  unfold Inst.fixReturnData
  rw [hr]
  dsimp only
  rw [if_pos ho]
  rfl

/-- C101, as far as it holds: a flow in which no activity returns or replies, and which ends Completed, gives its caller exactly one result;
it has a value for a declared output without default exactly if the flow has given it a value, and this value; no undeclared output. A
declared output with default has the default. If the flow declares no outputs, there are no data.

Partial: an output with a default that the flow has given another value has the default all the same, see `C101_negation_default`; the caller of
a subflow gets nothing, see `C101_negation_subflow`. -/
theorem C101_declared_partial {id uri : String} {d : Def} {ins : AMap String Val} (hn : NoReturn env) (hk : (AMap.keys d.outputs).Nodup)
    (hc : c.returnId = false) {n : Nat}
    (hd : (after env c (Eng.init env id uri d ins) n).done = true) (hs : flowStatus (after env c (Eng.init env id uri d ins) n).eng 0 = some .completed) :
    ∃ m x, (after env c (Eng.init env id uri d ins) m).done = false ∧ (after env c (Eng.init env id uri d ins) (m + 1)).done = true ∧
      (after env c (Eng.init env id uri d ins) n).results = [x] ∧
      (d.hasOutputs = false → x.data = none) ∧
      (d.hasOutputs = true → ∃ data, x.data = some data ∧
        OutputsFrom d.outputs (attrAt (after env c (Eng.init env id uri d ins) m).eng 0) data) := by
  have hst : Started env (Eng.init env id uri d ins) := ⟨id, uri, d, ins, rfl⟩
  rcases hst.cases c n with ⟨_, h2⟩ | ⟨m, _, h1, h2, h3, h4, _⟩
  · rw [h2] at hd; cases hd
  · obtain ⟨I, J, hI, hJ, hstat, _, _, _, _, r1, _⟩ := report_results (c := c) (r := after env c (Eng.init env id uri d ins) m) h1.len
    have hcomp : I.status = .completed := by
      rw [h3] at hs
      unfold flowStatus at hs
      rw [hJ] at hs
      exact hstat.symm.trans (Option.some.inj hs)
    obtain ⟨b1, b2⟩ := r1 hcomp
    have hres : (after env c (Eng.init env id uri d ins) m).results = [] := by
      rw [h1.results]; unfold Run.start; rw [hc]; rfl
    have heng := after_eng h2
    have hmute := Eng.Mute.reachable hn (Eng.reachable_run hst.reachable m)
    have hI' : (Eng.run env (Eng.init env id uri d ins) m).insts[0]? = some I := by rw [← heng]; exact hI
    obtain ⟨hret, _⟩ := hmute 0 I hI'
    have hdefn : I.defn = d := root_defn hI'
    refine ⟨m, ⟨J.returnData, J.returnError⟩, h2, by rw [h4, Run.report_done], by rw [h3, b2, hres], fun ho => ?_, fun ho => ?_⟩
    · show J.returnData = none
      rw [b1]
      unfold Inst.fixReturnData
      rw [hret]
      dsimp only
      rw [if_neg (by rw [hdefn, ho]; simp)]
      exact hret
    · refine ⟨d.outputs.foldl (addOutput I.attrs) [], ?_, fun k hk => ?_, fun k hv => ?_, fun k v hv hnn => ?_⟩
      · show J.returnData = _
        rw [b1, fixReturnData_none hret (by rw [hdefn]; exact ho), hdefn]
      · rw [addOutputs_other _ _ _ hk]; rfl
      · rw [addOutputs_declared _ _ _ hk rfl hv]
        unfold attrAt
        rw [hI]
        rfl
      · rw [addOutputs_declared _ _ _ hk rfl hv, overridden_some _ _ hnn]

/-- A flow whose task A sets x to 1; x is declared with the default `v`, y without default. -/
def declaresX (v : Val) : Def := { name := "r", main := ⟨[tk "A"], []⟩, hasOutputs := true, outputs := [("y", .null), ("x", v), ("z", .null)] }
def declaresEnv : Env :=
  { tableEnv (fun _ => { sets := [("x", .int 1), ("y", .int 2), ("w", .int 3)] }) (fun _ => .ok true) with
    defs := fun u => if u = "r" then .ok (some (declaresX .null)) else .ok none }
/-- The run of the flow as the top-level flow. -/
def declaresRun (v : Val) : Run := after declaresEnv { limit := 100 } (Eng.init declaresEnv "1" "u" (declaresX v) []) 40
def declaresResult (v : Val) (k : String) : List (Option Int) :=
  (declaresRun v).results.map (fun x => x.data.bind (fun m => (AMap.get? m k).bind number?))

theorem declares_noReturn : NoReturn declaresEnv := fun _ _ _ => ⟨⟨rfl, rfl⟩, rfl, rfl⟩

-- non-trivial instance: the hypotheses hold; x and y have the values the flow computed, z has none, w is not declared
example : (declaresRun .null).done = true ∧ flowStatus (declaresRun .null).eng 0 = some .completed ∧
    (AMap.keys (declaresX .null).outputs).Nodup ∧ (declaresX .null).hasOutputs = true := by decide
example : declaresResult .null "x" = [some 1] ∧ declaresResult .null "y" = [some 2] ∧ declaresResult .null "z" = [none] ∧
    declaresResult .null "w" = [none] := by decide

/-- C101 does not hold for an output with a default: the flow gives x the value 1, but its result has the default 5. -/
theorem C101_negation_default : (attrAt (Eng.run declaresEnv (Eng.init declaresEnv "1" "u" (declaresX (.int 5)) []) 20) 0 "x").bind number? = some 1 ∧
    flowStatus (Eng.run declaresEnv (Eng.init declaresEnv "1" "u" (declaresX (.int 5)) []) 20) 0 = some .completed ∧ declaresResult (.int 5) "x" = [some 5] := by
  decide

/-- C101 does not hold for the caller of a subflow: whenever a called flow completes in which no activity returns, the outputs of the task that
called it are absent, whatever outputs the called flow declares. -/
theorem C101_negation_subflow {e : Eng} (hn : NoReturn env) (hr : Reachable env e) {j : Nat} {I : Inst} (hj0 : j ≠ 0) (hI : e.insts[j]? = some I)
    (hs : I.status ≠ .completed) (h : flowStatus (e.step env) j = some .completed) :
    ∃ J hi ho hob, (e.step env).insts[j]? = some J ∧ J.host = some (hi, ho) ∧ (e.step env).obj? hi ho = some hob ∧ hob.outputs = none := by
  obtain ⟨J, hi, ho, hob, h1, h2, h3, h4, _⟩ := C25_completed hr hj0 hI hs h
  exact ⟨J, hi, ho, hob, h1, h2, h3, h4.trans (Eng.Mute.reachable hn (Eng.reachable_step hr) j J h1).1⟩

/-- The flow called by the task A of `hostFlow`: it completes and has given x the value 1, and so does the calling flow, but the calling flow
finds no outputs of its task; a called flow with an explicit return provides them. -/
theorem C101_negation_unreadable :
    flowStatus (Eng.run declaresEnv (Eng.init declaresEnv "1" "u" hostFlow []) 20) 1 = some .completed ∧
    attrAt (Eng.run declaresEnv (Eng.init declaresEnv "1" "u" hostFlow []) 20) 1 "x" = some (.int 1) ∧
    flowStatus (Eng.run declaresEnv (Eng.init declaresEnv "1" "u" hostFlow []) 20) 0 = some .completed ∧
    outputsOf (Eng.run declaresEnv (Eng.init declaresEnv "1" "u" hostFlow []) 20) 0 0 = .obj [] ∧
    outputsOf (Eng.run (returnEnv none (.ok true)) (Eng.init (returnEnv none (.ok true)) "1" "u" hostFlow []) 20) 0 0 = .obj [("x", .int 1)] :=
  ⟨by decide, rfl, by decide, rfl, rfl⟩

end Flow
