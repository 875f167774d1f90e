import Verif.Model.SharedDicts
import Verif.Props.LatexNames

/-!
# C96: objects are independent of each other and of what the caller does later
-/

namespace Verif

/-! ## Spec -/

/-- The user hands no dictionary to an object that another object has already, and does not write into
the dictionary of an object.  (Dictionaries must exist.) -/
def KeepsApart (w : PyWorld) : ObjCmd → Prop
  | .declare _ _ vs _ _ _ _ _ as =>
      (∀ a, vs = some a → a < w.vals.length ∧ ∀ o ∈ w.objs, o.valsAt ≠ a) ∧
      (∀ a, as = some a → a < w.asms.length ∧ ∀ o ∈ w.objs, o.asmAt ≠ a)
  | .writeVals a _ _ => ∀ o ∈ w.objs, o.valsAt ≠ a
  | .writeAsm a _ _ => ∀ o ∈ w.objs, o.asmAt ≠ a
  | _ => True

/-- So it is for every command of the sequence. -/
def AllKeepApart : PyWorld → List ObjCmd → Prop
  | _, [] => True
  | w, c :: cs => KeepsApart w c ∧ AllKeepApart (stepCmd w c).1 cs

/-- Everything that can be seen of an object. -/
structure Seen where
  shown : ShownObj
  positive : Bool
  real : Bool
  symbol : SymbolOf

/-- What is seen of the `k`-th object. -/
def seenObj (w : PyWorld) (k : Nat) : Option Seen :=
  (w.objs[k]?).map fun o => ⟨o.shown w, o.positive, o.real, o.toSympy w⟩

/-- The command is an update of the `k`-th object. -/
def Updates (k : Nat) : ObjCmd → Prop
  | .update k' _ _ => k' = k
  | _ => False

/-- The parts of what is seen agree: the displayed name has the labels of `dim_vals`, and the symbol has
those labels and the assumptions that the object says it has. -/
structure Seen.Agrees (s : Seen) : Prop where
  name : s.symbol.base = s.shown.name
  full : s.shown.full = fullLatexName s.shown.latex s.shown.extend s.shown.dims s.shown.dimVals
  labels : s.symbol.indices = s.shown.dims.map fun d => (d, dget s.shown.dimVals d)
  positive : dget s.symbol.assumptions "positive".toList = some s.positive
  real : dget s.symbol.assumptions "real".toList = some s.real

/-! ## Invariant -/

/-- No two objects have a dictionary in common. -/
structure Apart (w : PyWorld) : Prop where
  valsIn : ∀ o ∈ w.objs, o.valsAt < w.vals.length
  asmIn : ∀ o ∈ w.objs, o.asmAt < w.asms.length
  vals : (w.objs.map ObjRef.valsAt).Nodup
  asms : (w.objs.map ObjRef.asmAt).Nodup

theorem apart_empty (vals : List (Dict Str Str)) (asms : List (Dict Str Bool)) :
    Apart ⟨vals, asms, []⟩ := ⟨by simp, by simp, by simp, by simp⟩

theorem cellAt_append {β : Type} (l l' : List (Dict Str β)) (a : Nat) (h : a < l.length) :
    cellAt (l ++ l') a = cellAt l a := by
  unfold cellAt
  rw [List.getElem?_append_left h]

theorem cellAt_end {β : Type} (l : List (Dict Str β)) (d : Dict Str β) :
    cellAt (l ++ [d]) l.length = d := by
  simp [cellAt]

theorem cellAt_set_ne {β : Type} (l : List (Dict Str β)) (a b : Nat) (d : Dict Str β) (h : a ≠ b) :
    cellAt (l.set a d) b = cellAt l b := by
  unfold cellAt
  rw [List.getElem?_set_ne h]

theorem cellAt_set_self {β : Type} (l : List (Dict Str β)) (a : Nat) (d : Dict Str β)
    (h : a < l.length) : cellAt (l.set a d) a = d := by
  unfold cellAt
  rw [List.getElem?_set_self h]
  rfl

/-- What is seen of an object depends on its record and its two cells only. -/
theorem seen_congr (w w' : PyWorld) (k : Nat) (ho : w'.objs[k]? = w.objs[k]?)
    (hv : ∀ o, w.objs[k]? = some o → cellAt w'.vals o.valsAt = cellAt w.vals o.valsAt)
    (ha : ∀ o, w.objs[k]? = some o → cellAt w'.asms o.asmAt = cellAt w.asms o.asmAt) :
    seenObj w' k = seenObj w k := by
  unfold seenObj
  rw [ho]
  cases h : w.objs[k]? with
  | none => rfl
  | some o =>
    simp only [Option.map_some, ObjRef.shown, ObjRef.toSympy, hv o h, ha o h]

theorem map_valsAt_set (l : List ObjRef) (k : Nat) (o o' : ObjRef) (h : l[k]? = some o)
    (hv : o'.valsAt = o.valsAt) : (l.set k o').map ObjRef.valsAt = l.map ObjRef.valsAt := by
  apply List.ext_getElem?
  intro i
  simp only [List.getElem?_map, List.getElem?_set]
  split
  · subst i
    split
    · simp [h, hv]
    · rename_i hk; rw [List.getElem?_eq_none (by omega)] at h; cases h
  · rfl

theorem map_asmAt_set (l : List ObjRef) (k : Nat) (o o' : ObjRef) (h : l[k]? = some o)
    (hv : o'.asmAt = o.asmAt) : (l.set k o').map ObjRef.asmAt = l.map ObjRef.asmAt := by
  apply List.ext_getElem?
  intro i
  simp only [List.getElem?_map, List.getElem?_set]
  split
  · subst i
    split
    · simp [h, hv]
    · rename_i hk; rw [List.getElem?_eq_none (by omega)] at h; cases h
  · rfl

theorem nodup_at {β : Type} (l : List ObjRef) (f : ObjRef → β) (h : (l.map f).Nodup) (i j : Nat)
    (a b : ObjRef) (hi : l[i]? = some a) (hj : l[j]? = some b) (hne : i ≠ j) : f a ≠ f b := by
  intro he
  have h1 : (l.map f)[i]? = some (f a) := by simp [hi]
  have h2 : (l.map f)[j]? = some (f a) := by simp [hj, he]
  have hlt : i < (l.map f).length := by
    rw [List.length_map]; exact (List.getElem?_eq_some_iff.1 hi).1
  exact hne ((List.getElem?_inj hlt h).1 (h1.trans h2.symm))

theorem apart_step (w : PyWorld) (c : ObjCmd) (hw : Apart w) (hc : KeepsApart w c) :
    Apart (stepCmd w c).1 := by
  obtain ⟨hv, ha, hvn, han⟩ := hw
  cases c with
  | newVals d =>
    refine ⟨fun o ho => ?_, ha, hvn, han⟩
    have := hv o ho
    simp only [stepCmd, List.length_append]
    omega
  | newAsm d =>
    refine ⟨hv, fun o ho => ?_, hvn, han⟩
    have := ha o ho
    simp only [stepCmd, List.length_append]
    omega
  | writeVals a k v => exact ⟨by simpa [stepCmd] using hv, ha, hvn, han⟩
  | writeAsm a k v => exact ⟨hv, by simpa [stepCmd] using ha, hvn, han⟩
  | update k d v =>
    simp only [stepCmd, updateAt]
    split
    · exact ⟨hv, ha, hvn, han⟩
    · rename_i o ho
      split
      · have key : ∀ (o' : ObjRef), o'.valsAt = o.valsAt → o'.asmAt = o.asmAt →
            Apart ⟨w.vals.set o.valsAt (dset (cellAt w.vals o.valsAt) d v), w.asms,
              w.objs.set k o'⟩ := by
          intro o' h1 h2
          have hm := List.mem_of_getElem? ho
          refine ⟨fun x hx => ?_, fun x hx => ?_, ?_, ?_⟩
          · rw [List.length_set]
            rcases List.mem_or_eq_of_mem_set hx with hx | rfl
            · exact hv x hx
            · rw [h1]; exact hv o hm
          · rcases List.mem_or_eq_of_mem_set hx with hx | rfl
            · exact ha x hx
            · show _ < w.asms.length
              rw [h2]; exact ha o hm
          · show ((w.objs.set k o').map _).Nodup
            rw [map_valsAt_set _ _ _ _ ho h1]; exact hvn
          · show ((w.objs.set k o').map _).Nodup
            rw [map_asmAt_set _ _ _ _ ho h2]; exact han
        exact key _ rfl rfl
      · exact ⟨hv, ha, hvn, han⟩
  | copy k =>
    simp only [stepCmd, copyAt]
    split
    · exact ⟨hv, ha, hvn, han⟩
    · rename_i o ho
      refine ⟨fun x hx => ?_, fun x hx => ?_, ?_, ?_⟩
      · simp only [List.mem_append, List.mem_singleton] at hx
        simp only [List.length_append, List.length_singleton]
        rcases hx with hx | rfl
        · have := hv x hx; omega
        · exact Nat.lt_succ_self _
      · simp only [List.mem_append, List.mem_singleton] at hx
        simp only [List.length_append, List.length_singleton]
        rcases hx with hx | rfl
        · have := ha x hx; omega
        · exact Nat.lt_succ_self _
      · simp only [List.map_append, List.map_cons, List.map_nil]
        rw [List.nodup_append]
        refine ⟨hvn, by simp, fun a haa b hb => ?_⟩
        simp only [List.mem_singleton] at hb
        obtain ⟨x, hx, rfl⟩ := List.mem_map.1 haa
        have := hv x hx; omega
      · simp only [List.map_append, List.map_cons, List.map_nil]
        rw [List.nodup_append]
        refine ⟨han, by simp, fun a haa b hb => ?_⟩
        simp only [List.mem_singleton] at hb
        obtain ⟨x, hx, rfl⟩ := List.mem_map.1 haa
        have := ha x hx; omega
  | declare n ds vs l d p r x as =>
    obtain ⟨h1, h2⟩ := hc
    simp only [stepCmd, declareAt]
    have hlen : w.asms.length ≤ (flagsWritten w.asms as p r).length := by
      cases as <;> simp [flagsWritten]
    have hat : as.getD w.asms.length < (flagsWritten w.asms as p r).length := by
      cases as with
      | none => simp [flagsWritten]
      | some a => simpa [flagsWritten] using (h2 a rfl).1
    split
    · exact ⟨hv, fun o ho => Nat.lt_of_lt_of_le (ha o ho) hlen, hvn, han⟩
    · refine ⟨fun o ho => ?_, fun o ho => ?_, ?_, ?_⟩
      · simp only [List.mem_append, List.mem_singleton] at ho
        rcases ho with ho | rfl
        · have := hv o ho
          dsimp only
          split <;> simp <;> omega
        · cases vs with
          | none => simp
          | some a => simpa using (h1 a rfl).1
      · simp only [List.mem_append, List.mem_singleton] at ho
        rcases ho with ho | rfl
        · exact Nat.lt_of_lt_of_le (ha o ho) hlen
        · exact hat
      · simp only [List.map_append, List.map_cons, List.map_nil]
        rw [List.nodup_append]
        refine ⟨hvn, by simp, fun a haa b hb => ?_⟩
        simp only [List.mem_singleton] at hb
        obtain ⟨o, ho, rfl⟩ := List.mem_map.1 haa
        subst hb
        cases vs with
        | none => have := hv o ho; simp; omega
        | some a => exact (h1 a rfl).2 o ho
      · simp only [List.map_append, List.map_cons, List.map_nil]
        rw [List.nodup_append]
        refine ⟨han, by simp, fun a haa b hb => ?_⟩
        simp only [List.mem_singleton] at hb
        obtain ⟨o, ho, rfl⟩ := List.mem_map.1 haa
        subst hb
        cases as with
        | none => have := ha o ho; simp; omega
        | some a => exact (h2 a rfl).2 o ho

theorem seen_step (w : PyWorld) (c : ObjCmd) (hw : Apart w) (hc : KeepsApart w c) (k : Nat)
    (hk : k < w.objs.length) (hu : ¬ Updates k c) : seenObj (stepCmd w c).1 k = seenObj w k := by
  obtain ⟨hv, ha, hvn, han⟩ := hw
  cases c with
  | newVals d =>
    exact seen_congr _ _ _ rfl
      (fun o ho => cellAt_append _ _ _ (hv o (List.mem_of_getElem? ho))) fun _ _ => rfl
  | newAsm d =>
    exact seen_congr _ _ _ rfl (fun _ _ => rfl)
      (fun o ho => cellAt_append _ _ _ (ha o (List.mem_of_getElem? ho)))
  | writeVals a _ _ =>
    exact seen_congr _ _ _ rfl
      (fun o ho => cellAt_set_ne _ _ _ _ (Ne.symm (hc o (List.mem_of_getElem? ho)))) fun _ _ => rfl
  | writeAsm a _ _ =>
    exact seen_congr _ _ _ rfl (fun _ _ => rfl)
      (fun o ho => cellAt_set_ne _ _ _ _ (Ne.symm (hc o (List.mem_of_getElem? ho))))
  | update k' d v =>
    simp only [stepCmd, updateAt]
    split
    · rfl
    · rename_i o ho
      split
      · have hne : k' ≠ k := hu
        refine seen_congr _ _ _ (List.getElem?_set_ne hne) (fun x hx => ?_) fun _ _ => rfl
        exact cellAt_set_ne _ _ _ _ (nodup_at _ _ hvn _ _ _ _ ho hx hne)
      · rfl
  | copy k' =>
    simp only [stepCmd, copyAt]
    split
    · rfl
    · refine seen_congr _ _ _ (List.getElem?_append_left hk) (fun x hx => ?_) (fun x hx => ?_)
      · exact cellAt_append _ _ _ (hv x (List.mem_of_getElem? hx))
      · exact cellAt_append _ _ _ (ha x (List.mem_of_getElem? hx))
  | declare n ds vs l d p r x as =>
    obtain ⟨h1, h2⟩ := hc
    have hasm : ∀ o, w.objs[k]? = some o →
        cellAt (flagsWritten w.asms as p r) o.asmAt = cellAt w.asms o.asmAt := by
      intro o ho
      cases as with
      | none => exact cellAt_append _ _ _ (ha o (List.mem_of_getElem? ho))
      | some a => exact cellAt_set_ne _ _ _ _ (Ne.symm ((h2 a rfl).2 o (List.mem_of_getElem? ho)))
    simp only [stepCmd, declareAt]
    split
    · exact seen_congr _ _ _ rfl (fun _ _ => rfl) fun o ho => hasm o ho
    · refine seen_congr _ _ _ (List.getElem?_append_left hk) (fun o ho => ?_) fun o ho => hasm o ho
      dsimp only
      split
      · exact cellAt_append _ _ _ (hv o (List.mem_of_getElem? ho))
      · rfl

theorem objs_length_step (w : PyWorld) (c : ObjCmd) : w.objs.length ≤ (stepCmd w c).1.objs.length := by
  cases c <;> simp only [stepCmd, declareAt, updateAt, copyAt] <;> (repeat' split) <;> simp

/-- **C96 (independence).**  However a user declares, copies and updates objects, and whatever they do
with their dictionaries – commands that raise included –, as long as no dictionary is handed to an object
while another object has it and none is written to while an object has it: an object changes in nothing
that can be seen of it except by its own `update_dim_value`. -/
theorem C96_independent_partial (vals : List (Dict Str Str)) (asms : List (Dict Str Bool))
    (before after : List ObjCmd) (ha : AllKeepApart ⟨vals, asms, []⟩ (before ++ after)) (k : Nat)
    (hk : k < (runCmds ⟨vals, asms, []⟩ before).objs.length) (hu : ∀ c ∈ after, ¬ Updates k c) :
    seenObj (runCmds ⟨vals, asms, []⟩ (before ++ after)) k =
      seenObj (runCmds ⟨vals, asms, []⟩ before) k := by
  have hinv : ∀ (cs cs' : List ObjCmd) (w : PyWorld), Apart w → AllKeepApart w (cs ++ cs') →
      Apart (runCmds w cs) ∧ AllKeepApart (runCmds w cs) cs' := by
    intro cs cs'
    induction cs with
    | nil => intro w h h'; exact ⟨h, h'⟩
    | cons c cs ih =>
      intro w h h'
      exact ih _ (apart_step w c h h'.1) h'.2
  obtain ⟨hw, hrest⟩ := hinv before after _ (apart_empty vals asms) ha
  have hsplit : runCmds ⟨vals, asms, []⟩ (before ++ after) =
      runCmds (runCmds ⟨vals, asms, []⟩ before) after := by
    unfold runCmds; rw [List.foldl_append]
  rw [hsplit]
  generalize runCmds ⟨vals, asms, []⟩ before = w at *
  clear ha hsplit
  induction after generalizing w with
  | nil => rfl
  | cons c cs ih =>
    have := ih (fun c' h => hu c' (by simp [h])) (stepCmd w c).1
      (Nat.lt_of_lt_of_le hk (objs_length_step w c)) (apart_step w c hw hrest.1) hrest.2
    exact this.trans (seen_step w c hw hrest.1 k hk (hu c (by simp)))

/-- What is seen of an object agrees with itself. -/
def AllAgree (w : PyWorld) : Prop := ∀ k s, seenObj w k = some s → s.Agrees

theorem seen_some (w : PyWorld) (k : Nat) (s : Seen) (h : seenObj w k = some s) :
    ∃ o, w.objs[k]? = some o ∧ s = ⟨o.shown w, o.positive, o.real, o.toSympy w⟩ := by
  unfold seenObj at h
  cases ho : w.objs[k]? with
  | none => rw [ho] at h; cases h
  | some o => rw [ho] at h; injection h with h; exact ⟨o, rfl, h.symm⟩

theorem withFlags_positive (d : Dict Str Bool) (p r : Bool) :
    dget (withFlags d p r) "positive".toList = some p := dget_dset_self _ _ _

theorem withFlags_real (d : Dict Str Bool) (p r : Bool) :
    dget (withFlags d p r) "real".toList = some r := by
  unfold withFlags
  rw [dget_dset_ne _ _ (by decide)]
  exact dget_dset_self _ _ _

/-- **C96 (declaring).**  A declared object is the one that the contents of the dictionaries at that
moment say; the flags `real` and `positive` override what the given assumptions say. -/
theorem C96_declared (w : PyWorld) (n : Str) (ds : List Str) (vs : Option Nat)
    (l d : Option Str) (p r : Bool) (x : Int) (as : Option Nat)
    (hc : KeepsApart w (.declare n ds vs l d p r x as)) :
    match declareObj n ds (vs.map (cellAt w.vals)) l d p r x with
    | .error e => (stepCmd w (.declare n ds vs l d p r x as)).2 = .error e ∧
        (stepCmd w (.declare n ds vs l d p r x as)).1.objs = w.objs
    | .ok o => (stepCmd w (.declare n ds vs l d p r x as)).2 = .ok () ∧
        seenObj (stepCmd w (.declare n ds vs l d p r x as)).1 w.objs.length =
          some ⟨o, p, r, n, withFlags ((as.map (cellAt w.asms)).getD []) p r,
            ds.map fun dim => (dim, dget o.dimVals dim)⟩ := by
  simp only [stepCmd, declareAt]
  cases hd : declareObj n ds (vs.map (cellAt w.vals)) l d p r x with
  | error e => exact ⟨rfl, rfl⟩
  | ok o =>
    refine ⟨rfl, ?_⟩
    have ho : o.name = n ∧ o.dims = ds ∧ o.extend = x ∧ o.dimVals = (vs.map (cellAt w.vals)).getD [] := by
      unfold declareObj at hd
      dsimp only at hd
      split at hd
      · injection hd with hd; subst hd; exact ⟨rfl, rfl, rfl, rfl⟩
      · cases hd
    have hvals : cellAt (if vs.isNone then w.vals ++ [[]] else w.vals) (vs.getD w.vals.length) =
        o.dimVals := by
      rw [ho.2.2.2]
      cases vs with
      | none => exact cellAt_end _ _
      | some a => rfl
    have hasm : cellAt (flagsWritten w.asms as p r) (as.getD w.asms.length) =
        withFlags ((as.map (cellAt w.asms)).getD []) p r := by
      cases as with
      | none => exact cellAt_end _ _
      | some a => exact cellAt_set_self _ _ _ (hc.2 a rfl).1
    unfold seenObj
    rw [List.getElem?_concat_length]
    simp only [Option.map_some, ObjRef.shown, ObjRef.toSympy, hvals, hasm]
    obtain ⟨h1, h2, h3, -⟩ := ho
    subst h1 h2 h3
    rfl

/-- **C96 (updating and copying).**  `update_dim_value` does to the object that it is called on what it
does to an object alone (see C95), and `copy` gives an object that looks the same. -/
theorem C96_updated (w : PyWorld) (hw : Apart w) (k : Nat) (s : Seen) (hs : seenObj w k = some s)
    (dim value : Str) :
    match s.shown.update dim value with
    | .error e => stepCmd w (.update k dim value) = (w, .error e)
    | .ok o => (stepCmd w (.update k dim value)).2 = .ok () ∧
        seenObj (stepCmd w (.update k dim value)).1 k =
          some ⟨o, s.positive, s.real, s.symbol.base, s.symbol.assumptions,
            o.dims.map fun d => (d, dget o.dimVals d)⟩ := by
  obtain ⟨o, ho, rfl⟩ := seen_some w k s hs
  have hlt := (List.getElem?_eq_some_iff.1 ho).1
  by_cases h : dim ∈ o.dims
  · have hup : (o.shown w).update dim value = .ok { o.shown w with
        dimVals := dset (cellAt w.vals o.valsAt) dim value
        full := fullLatexName o.latex o.extend o.dims (dset (cellAt w.vals o.valsAt) dim value)
        description := prettyPrint o.description o.dims (dset (cellAt w.vals o.valsAt) dim value) } := by
      exact if_pos h
    rw [hup]
    simp only [stepCmd, updateAt, ho, if_pos h]
    refine ⟨trivial, ?_⟩
    unfold seenObj
    simp only [List.getElem?_set_self hlt, Option.map_some, ObjRef.shown, ObjRef.toSympy,
      cellAt_set_self _ _ _ (hw.valsIn o (List.mem_of_getElem? ho))]
  · have hup : (o.shown w).update dim value = .error .valueError := by
      exact if_neg h
    rw [hup]
    simp only [stepCmd, updateAt, ho, if_neg h]

theorem C96_copied (w : PyWorld) (k : Nat) (s : Seen) (hs : seenObj w k = some s) :
    (stepCmd w (.copy k)).2 = .ok () ∧ seenObj (stepCmd w (.copy k)).1 w.objs.length = some s := by
  obtain ⟨o, ho, rfl⟩ := seen_some w k s hs
  simp only [stepCmd, copyAt, ho]
  refine ⟨trivial, ?_⟩
  unfold seenObj
  rw [List.getElem?_concat_length]
  simp only [Option.map_some, ObjRef.shown, ObjRef.toSympy, cellAt_end]

theorem agree_step (w : PyWorld) (c : ObjCmd) (hw : Apart w) (hc : KeepsApart w c) (h : AllAgree w) :
    AllAgree (stepCmd w c).1 := by
  intro k s hs
  by_cases hk : k < w.objs.length
  · by_cases hu : Updates k c
    · cases c <;> simp only [Updates] at hu
      rename_i k' dim value
      subst hu
      have hex : ∃ s0, seenObj w k' = some s0 := by
        unfold seenObj
        rw [List.getElem?_eq_getElem hk]
        exact ⟨_, rfl⟩
      obtain ⟨s0, hs0⟩ := hex
      have hup := C96_updated w hw k' s0 hs0 dim value
      have hag := h k' s0 hs0
      split at hup
      · rw [hup] at hs
        exact h k' s hs
      · rename_i o ho
        rw [hup.2] at hs
        injection hs with hs
        subst hs
        unfold ShownObj.update at ho
        split at ho
        · injection ho with ho
          subst ho
          exact ⟨hag.name, rfl, rfl, hag.positive, hag.real⟩
        · cases ho
    · rw [seen_step w c hw hc k hk hu] at hs
      exact h k s hs
  · have hlen : k < (stepCmd w c).1.objs.length := by
      obtain ⟨o, ho, -⟩ := seen_some _ k s hs
      exact (List.getElem?_eq_some_iff.1 ho).1
    cases c with
    | newVals d => exact absurd hlen hk
    | newAsm d => exact absurd hlen hk
    | writeVals a _ _ => exact absurd hlen hk
    | writeAsm a _ _ => exact absurd hlen hk
    | update k' d v =>
      exfalso
      apply hk
      simp only [stepCmd, updateAt] at hlen
      split at hlen
      · exact hlen
      · split at hlen
        · simpa using hlen
        · exact hlen
    | copy k' =>
      cases ho : w.objs[k']? with
      | none =>
        exfalso
        apply hk
        simpa only [stepCmd, copyAt, ho] using hlen
      | some o =>
        have hk' : k = w.objs.length := by
          simp only [stepCmd, copyAt, ho, List.length_append, List.length_singleton] at hlen
          omega
        have hex : seenObj w k' = some ⟨o.shown w, o.positive, o.real, o.toSympy w⟩ := by
          unfold seenObj; rw [ho]; rfl
        have := (C96_copied w k' _ hex).2
        rw [← hk', hs] at this
        injection this with this
        subst this
        exact h k' _ hex
    | declare n ds vs l d p r x as =>
      have hd := C96_declared w n ds vs l d p r x as hc
      split at hd
      · rw [hd.2] at hlen; exact absurd hlen hk
      · rename_i o ho
        have hk' : k = w.objs.length := by
          have : (stepCmd w (.declare n ds vs l d p r x as)).1.objs.length = w.objs.length + 1 := by
            simp only [stepCmd, declareAt, ho, List.length_append, List.length_singleton]
          omega
        rw [hk', hd.2] at hs
        injection hs with hs
        subst hs
        unfold declareObj at ho
        dsimp only at ho
        split at ho
        · injection ho with ho
          subst ho
          exact ⟨rfl, rfl, rfl, withFlags_positive _ _ _, withFlags_real _ _ _⟩
        · cases ho

/-- **C96 (consistency).**  Under the same conditions, after any sequence of commands every object agrees
with itself: it is displayed with the labels that its symbol has, and its symbol has the assumptions that
its flags say. -/
theorem C96_agrees_partial (vals : List (Dict Str Str)) (asms : List (Dict Str Bool)) (cs : List ObjCmd)
    (ha : AllKeepApart ⟨vals, asms, []⟩ cs) (k : Nat) (s : Seen)
    (hs : seenObj (runCmds ⟨vals, asms, []⟩ cs) k = some s) : s.Agrees := by
  have key : ∀ (cs : List ObjCmd) (w : PyWorld), Apart w → AllAgree w → AllKeepApart w cs →
      AllAgree (runCmds w cs) := by
    intro cs
    induction cs with
    | nil => intro w _ h _; exact h
    | cons c cs ih =>
      intro w hw h hc
      exact ih _ (apart_step w c hw hc.1) (agree_step w c hw hc.1 h) hc.2
  refine key cs _ (apart_empty vals asms) ?_ ha k s hs
  intro k s hs
  obtain ⟨o, ho, -⟩ := seen_some _ k s hs
  simp at ho

/-- **C96 (the caller's dictionaries).**  Declaring an object never changes a dictionary of labels; of the
dictionaries of assumptions it changes the given one, also when the declaration is refused: there the flags
are written. -/
theorem C96_given_assumptions (w : PyWorld) (n : Str) (ds : List Str) (vs : Option Nat)
    (l d : Option Str) (p r : Bool) (x : Int) (as : Option Nat) (b : Nat) :
    (b < w.vals.length →
      cellAt (stepCmd w (.declare n ds vs l d p r x as)).1.vals b = cellAt w.vals b) ∧
    (b < w.asms.length →
      cellAt (stepCmd w (.declare n ds vs l d p r x as)).1.asms b =
        if as = some b then withFlags (cellAt w.asms b) p r else cellAt w.asms b) := by
  have hasm : b < w.asms.length → cellAt (flagsWritten w.asms as p r) b =
        if as = some b then withFlags (cellAt w.asms b) p r else cellAt w.asms b := by
    intro hb
    cases as with
    | none => simpa [flagsWritten] using cellAt_append _ _ _ hb
    | some a =>
      by_cases hab : a = b
      · subst hab; simpa [flagsWritten] using cellAt_set_self _ _ _ hb
      · simpa [flagsWritten, hab] using cellAt_set_ne _ _ _ _ hab
  simp only [stepCmd, declareAt]
  split
  · exact ⟨fun _ => rfl, hasm⟩
  · refine ⟨fun hb => ?_, hasm⟩
    dsimp only
    split
    · exact cellAt_append _ _ _ hb
    · rfl

/-- Of the dictionaries of labels `update_dim_value` changes that of its object – which is the one given by
the caller, if one was given – and no other; the assumptions it leaves alone. -/
theorem C96_written_label (w : PyWorld) (k : Nat) (o : ObjRef) (ho : w.objs[k]? = some o)
    (dim value : Str) (hd : dim ∈ o.dims) (b : Nat) (hb : b < w.vals.length) :
    cellAt (stepCmd w (.update k dim value)).1.vals b =
      (if o.valsAt = b then dset (cellAt w.vals b) dim value else cellAt w.vals b) ∧
    (stepCmd w (.update k dim value)).1.asms = w.asms := by
  simp only [stepCmd, updateAt, ho, if_pos hd]
  refine ⟨?_, trivial⟩
  by_cases h : o.valsAt = b
  · subst h; simpa using cellAt_set_self _ _ _ hb
  · simpa [h] using cellAt_set_ne _ _ _ _ h

/-! ## Example, and what goes wrong with a shared dictionary -/

/-- `d = {"j": "Food"}; a = {}; X = Variable("X", dims=("i", "j"), dim_vals=d, assumptions=a)`,
`Y = X.copy()`, `P = Variable("P", positive=False)`, `Y.update_dim_value("i", "Agri")`. -/
def exApart : List ObjCmd :=
  [.newVals [("j".toList, "Food".toList)], .newAsm [],
   .declare "X".toList ["i".toList, "j".toList] (some 0) none none true true 0 (some 0),
   .copy 0,
   .declare "P".toList [] none none none false true 0 none,
   .update 1 "i".toList "Agri".toList]

example : AllKeepApart ⟨[], [], []⟩ exApart := by
  refine ⟨trivial, trivial, ⟨?_, ?_⟩, trivial, ⟨?_, ?_⟩, trivial, trivial⟩
  · intro a ha
    cases ha
    exact ⟨by decide, fun o ho => absurd ho (by simp [stepCmd])⟩
  · intro a ha
    cases ha
    exact ⟨by decide, fun o ho => absurd ho (by simp [stepCmd])⟩
  · intro a ha; cases ha
  · intro a ha; cases ha

/-- The copy is displayed with both labels, the original with the one it was declared with. -/
example : ((runCmds ⟨[], [], []⟩ exApart).objs.map fun o => (o.full, o.toSympy (runCmds ⟨[], [], []⟩ exApart)))
    = [("X_{i, j=\\text{Food}}".toList, ⟨"X".toList, [("real".toList, true), ("positive".toList, true)],
          [("i".toList, none), ("j".toList, some "Food".toList)]⟩),
       ("X_{i=\\text{Agri}, j=\\text{Food}}".toList,
          ⟨"X".toList, [("real".toList, true), ("positive".toList, true)],
          [("i".toList, some "Agri".toList), ("j".toList, some "Food".toList)]⟩),
       ("P".toList, ⟨"P".toList, [("real".toList, true), ("positive".toList, false)], []⟩)] := by
  decide +kernel

/-- `d = {}; X = Variable("X", dims="i", dim_vals=d); Y = Variable("Y", dims="i", dim_vals=d)`,
`X.update_dim_value("i", "Agri")`. -/
def exSharedVals : List ObjCmd :=
  [.newVals [], .declare "X".toList ["i".toList] (some 0) none none true true 0 none,
   .declare "Y".toList ["i".toList] (some 0) none none true true 0 none,
   .update 0 "i".toList "Agri".toList]

/-- `a = {}; X = Variable("X", positive=False, assumptions=a); Y = Variable("Y", assumptions=a)`. -/
def exSharedAsm : List ObjCmd :=
  [.newAsm [], .declare "X".toList [] none none none false true 0 (some 0),
   .declare "Y".toList [] none none none true true 0 (some 0)]

/-- **Two objects declared with one dictionary of labels.**  Setting a label of `X` sets it in the symbol
of `Y` too, while `Y` is still displayed without it. -/
theorem C96_shared_labels_counterexample :
    ((runCmds ⟨[], [], []⟩ exSharedVals).objs[1]?.map fun o =>
        (o.full, (o.toSympy (runCmds ⟨[], [], []⟩ exSharedVals)).indices)) =
      some ("Y_{i}".toList, [("i".toList, some "Agri".toList)]) ∧
    ((runCmds ⟨[], [], []⟩ (exSharedVals.take 3)).objs[1]?.map fun o =>
        (o.full, (o.toSympy (runCmds ⟨[], [], []⟩ (exSharedVals.take 3))).indices)) =
      some ("Y_{i}".toList, [("i".toList, none)]) := by
  decide +kernel

/-- **Two objects declared with one dictionary of assumptions.**  `X` was declared with `positive=False`
and says so; after `Y` was declared the symbol of `X` is positive. -/
theorem C96_shared_assumptions_counterexample :
    ((runCmds ⟨[], [], []⟩ exSharedAsm).objs[0]?.map fun o =>
        (o.positive, dget (o.toSympy (runCmds ⟨[], [], []⟩ exSharedAsm)).assumptions "positive".toList)) =
      some (false, some true) ∧
    ((runCmds ⟨[], [], []⟩ (exSharedAsm.take 2)).objs[0]?.map fun o =>
        (o.positive,
          dget (o.toSympy (runCmds ⟨[], [], []⟩ (exSharedAsm.take 2))).assumptions "positive".toList)) =
      some (false, some false) := by
  decide +kernel

end Verif
