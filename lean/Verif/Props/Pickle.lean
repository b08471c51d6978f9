import Verif.Model.Pickle
import Verif.Props.Codec
import Verif.Lemmas.OrdDict
import Verif.Props.Refcount

/-! Properties of object pages written and read by the Nim code: C69. -/
namespace Tablite

/-! ## what the reader makes of a value -/

/-- the number left of an integer by four signed bytes -/
def wrap32 (z : Int) : Int := (z + 2147483648) % 4294967296 - 2147483648

/-- a value after writing it to an object page and reading it back, `us` being what becomes of the microseconds -/
def distort (us : Nat → Nat) : ObjV → ObjV
  | .int z => .int (wrap32 z)
  | .time t => .time (t / 1000000 * 1000000 + us (t % 1000000))
  | .datetime y m d h mi s t => .datetime y m d h mi s (us t)
  | v => v

/-- a value Nim can hold: fields in their ranges, bits of a float in eight bytes, strings of less than 2 GB -/
def ObjV.Fits : ObjV → Prop
  | .float bits => bits < 2 ^ 64
  | .str b => b.length < 2 ^ 31
  | .date y m d => y ≤ 9999 ∧ m ≤ 12 ∧ d ≤ 31
  | .time us => us < 86400000000
  | .datetime y m d h mi s us => y ≤ 9999 ∧ m ≤ 12 ∧ d ≤ 31 ∧ h ≤ 23 ∧ mi ≤ 59 ∧ s ≤ 60 ∧ us ≤ 999999
  | _ => True

/-! ## runs of the machine -/

/-- the machine gets from one state to the other in a number of operations not above the bytes consumed -/
def Runs (us : UsDecode) (s s' : PVM) : Prop :=
  ∃ n, n + s'.inp.length ≤ s.inp.length ∧ ∀ f, pRun us (n + f) s = pRun us f s'

theorem Runs.refl (us : UsDecode) (s : PVM) : Runs us s s := ⟨0, by omega, fun f => by rw [Nat.zero_add]⟩

theorem Runs.trans {us : UsDecode} {a b c : PVM} (h1 : Runs us a b) (h2 : Runs us b c) : Runs us a c := by
  obtain ⟨n, hn, h1⟩ := h1
  obtain ⟨m, hm, h2⟩ := h2
  exact ⟨n + m, by omega, fun f => by rw [Nat.add_assoc, h1, h2]⟩

theorem Runs.step {us : UsDecode} {a b : PVM} (h : pStep us a = .ok (.next b)) (hl : b.inp.length < a.inp.length) : Runs us a b :=
  ⟨1, by omega, fun f => by rw [Nat.add_comm, pRun, h]; rfl⟩

/-- whatever the memo and the rest of the input, reading what `w` writes takes the stack and the stacks below from one
state to another -/
def Acts (us : UsDecode) (w : PW) (st : List PObj) (ms : List (List PObj)) (st' : List PObj) (ms' : List (List PObj)) : Prop :=
  ∀ k r mm, ∃ mm', Runs us ⟨(w k).1 ++ r, st, ms, mm⟩ ⟨r, st', ms', mm'⟩

theorem acts_nil (us : UsDecode) (st : List PObj) (ms : List (List PObj)) : Acts us (PW.seq []) st ms st ms :=
  fun _ _ mm => ⟨mm, Runs.refl _ _⟩

theorem acts_cons {us : UsDecode} {w : PW} {l : List PW} {st st' st'' : List PObj} {ms ms' ms'' : List (List PObj)}
    (h1 : Acts us w st ms st' ms') (h2 : Acts us (PW.seq l) st' ms' st'' ms'') : Acts us (PW.seq (w :: l)) st ms st'' ms'' := by
  intro k r mm
  obtain ⟨m1, r1⟩ := h1 k ((PW.seq l (w k).2).1 ++ r) mm
  obtain ⟨m2, r2⟩ := h2 (w k).2 r m1
  refine ⟨m2, ?_⟩
  rw [PW.seq, List.append_assoc]
  exact r1.trans r2

theorem acts_emit {us : UsDecode} {b : List Nat} {st st' : List PObj} {ms ms' : List (List PObj)} (hb : b ≠ [])
    (h : ∀ r mm, pStep us ⟨b ++ r, st, ms, mm⟩ = .ok (.next ⟨r, st', ms', mm⟩)) : Acts us (PW.emit b) st ms st' ms' := by
  intro k r mm
  refine ⟨mm, Runs.step (h r mm) ?_⟩
  show r.length < (b ++ r).length
  rw [List.length_append]
  have := List.length_pos_iff.2 hb
  omega

theorem acts_skip (us : UsDecode) (st : List PObj) (ms : List (List PObj)) : Acts us (PW.emit []) st ms st ms :=
  fun _ _ mm => ⟨mm, Runs.refl _ _⟩

/-! ## the single operations -/

theorem pStep_arg (us : UsDecode) (op : Nat) (r : List Nat) (st : List PObj) (ms : List (List PObj)) (mm : List (Nat × PObj)) (h : hasArg op = true) :
    pStep us ⟨op :: r, st, ms, mm⟩ = pLoadArg ⟨op :: r, st, ms, mm⟩ op r := by
  rw [pStep]
  exact if_pos h

theorem pTake_append (b r : List Nat) (k : Nat) (h : b.length = k) : pTake k (b ++ r) = .ok (b, r) := by
  rw [pTake, if_pos (by rw [List.length_append]; omega), List.take_left' h, List.drop_left' h]

theorem pLine_append (m r : List Nat) (h : 10 ∉ m) : pLine (m ++ 10 :: r) = .ok (m, r) := by
  induction m with
  | nil => simp [pLine]
  | cons a t ih =>
    rw [List.cons_append, pLine, if_neg (fun e => h (by simp [e])), ih (fun e => h (by simp [e]))]
    rfl

theorem acts_binput (us : UsDecode) (o : PObj) (st : List PObj) (ms : List (List PObj)) : Acts us wBinput (o :: st) ms (o :: st) ms := by
  intro k r mm
  by_cases hk : k ≤ 255
  · refine ⟨(k % 256, o) :: mm, Runs.step ?_ ?_⟩
    · rw [wBinput, if_pos hk]
      rfl
    · rw [wBinput, if_pos hk]
      show r.length < r.length + 2
      omega
  · refine ⟨((sint32 (leBytes 4 k) % 18446744073709551616).toNat, o) :: mm, Runs.step ?_ ?_⟩
    · rw [wBinput, if_neg hk]
      rw [List.cons_append, pStep_arg _ _ _ _ _ _ (by decide), pLoadArg]
      simp only [Nat.reduceEqDiff, if_false, if_true, List.append_eq]
      rw [pTake_append _ _ 4 (leBytes_length 4 k)]
      rfl
    · rw [wBinput, if_neg hk]
      show r.length < (114 :: leBytes 4 k ++ r).length
      rw [List.length_append]
      simp

theorem acts_global (us : UsDecode) (m n : List Nat) (hm : 10 ∉ m) (hn : 10 ∉ n) (st : List PObj) (ms : List (List PObj)) :
    Acts us (PW.emit (wGlobal m n)) st ms (.global m n :: st) ms := by
  apply acts_emit (by simp [wGlobal])
  intro r mm
  rw [wGlobal, List.cons_append, pStep_arg _ _ _ _ _ _ (by decide), pLoadArg, if_pos rfl]
  simp only [List.append_eq, List.append_assoc, List.cons_append, List.nil_append]
  rw [pLine_append _ _ hm]
  simp only [Except.bind]
  rw [pLine_append _ _ hn]
  rfl

theorem sint32_wrap (z : Int) : sint32 (leBytes 4 (z % 4294967296).toNat) = wrap32 z := by
  rw [sint32, leNat_leBytes _ _ (by norm_num; omega), wrap32]
  split <;> omega

theorem acts_binint (us : UsDecode) (z : Int) (st : List PObj) (ms : List (List PObj)) :
    Acts us (PW.emit (wBinint z)) st ms (.val (.int (wrap32 z)) :: st) ms := by
  have h4 : ∀ r mm, pStep us ⟨(74 :: leBytes 4 (z % 4294967296).toNat) ++ r, st, ms, mm⟩ =
      .ok (.next ⟨r, .val (.int (wrap32 z)) :: st, ms, mm⟩) := by
    intro r mm
    rw [List.cons_append, pStep_arg _ _ _ _ _ _ (by decide), pLoadArg]
    simp only [Nat.reduceEqDiff, if_false, if_true, List.append_eq]
    rw [pTake_append _ _ 4 (leBytes_length 4 _)]
    simp only [Except.bind, sint32_wrap, PVM.push]
  apply acts_emit (by rw [wBinint]; split <;> (try split) <;> (try split) <;> simp)
  intro r mm
  rw [wBinint]
  split
  · exact h4 r mm
  split
  · rw [List.cons_append, pStep_arg _ _ _ _ _ _ (by decide), pLoadArg]
    simp only [Nat.reduceEqDiff, if_false, if_true, List.append_eq]
    rw [pTake_append _ _ 1 (leBytes_length 1 _)]
    simp only [Except.bind, PVM.push]
    rw [leNat_leBytes _ _ (by omega), wrap32]
    have : ((z.toNat : Nat) : Int) = (z + 2147483648) % 4294967296 - 2147483648 := by omega
    rw [this]
  split
  · rw [List.cons_append, pStep_arg _ _ _ _ _ _ (by decide), pLoadArg]
    simp only [Nat.reduceEqDiff, if_false, if_true, List.append_eq]
    rw [pTake_append _ _ 2 (leBytes_length 2 _)]
    simp only [Except.bind, PVM.push]
    rw [leNat_leBytes _ _ (by omega), wrap32]
    have : ((z.toNat : Nat) : Int) = (z + 2147483648) % 4294967296 - 2147483648 := by omega
    rw [this]
  · exact h4 r mm

theorem acts_binfloat (us : UsDecode) (bits : Nat) (h : bits < 2 ^ 64) (st : List PObj) (ms : List (List PObj)) :
    Acts us (PW.emit (wBinfloat bits)) st ms (.val (.float bits) :: st) ms := by
  apply acts_emit (by simp [wBinfloat])
  intro r mm
  rw [wBinfloat, List.cons_append, pStep_arg _ _ _ _ _ _ (by decide), pLoadArg]
  simp only [Nat.reduceEqDiff, if_false, if_true, List.append_eq]
  rw [pTake_append _ _ 8 (by rw [List.length_reverse, leBytes_length])]
  simp only [Except.bind, PVM.push, List.reverse_reverse]
  rw [leNat_leBytes _ _ (by norm_num; omega)]

theorem acts_bytes (us : UsDecode) (b : List Nat) (hb : b.length < 256) (st : List PObj) (ms : List (List PObj)) :
    Acts us (PW.emit (wShortbinbytes b)) st ms (.bytes b :: st) ms := by
  apply acts_emit (by simp [wShortbinbytes])
  intro r mm
  rw [wShortbinbytes, Nat.mod_eq_of_lt hb, List.cons_append, pStep_arg _ _ _ _ _ _ (by decide), pLoadArg]
  simp only [Nat.reduceEqDiff, if_false, if_true, List.append_eq]
  rw [show b.length :: b ++ r = [b.length] ++ (b ++ r) from rfl, pTake_append _ _ 1 rfl]
  simp only [Except.bind, PVM.push]
  rw [show leNat [b.length] = b.length from by simp [leNat], pTake_append _ _ _ rfl]

theorem acts_binunicode (us : UsDecode) (b : List Nat) (hb : b.length < 2 ^ 31) (st : List PObj) (ms : List (List PObj)) :
    Acts us (PW.emit (wBinunicode b)) st ms (.val (.str b) :: st) ms := by
  apply acts_emit (by simp [wBinunicode])
  intro r mm
  rw [wBinunicode, List.cons_append, pStep_arg _ _ _ _ _ _ (by decide), pLoadArg]
  simp only [Nat.reduceEqDiff, if_false, if_true, List.append_eq, List.append_assoc]
  rw [pTake_append _ _ 4 (leBytes_length 4 _)]
  simp only [Except.bind, PVM.push]
  rw [show (sint32 (leBytes 4 b.length)).toNat = b.length from by
    rw [sint32, leNat_leBytes _ _ (by norm_num; omega), if_pos (by omega)]; omega, pTake_append _ _ _ rfl]

theorem acts_proto (us : UsDecode) (st : List PObj) (ms : List (List PObj)) : Acts us (PW.emit wProto) st ms st ms :=
  acts_emit (by simp [wProto]) fun _ _ => rfl
theorem acts_none (us : UsDecode) (st : List PObj) (ms : List (List PObj)) : Acts us (PW.emit [78]) st ms (.val .none :: st) ms :=
  acts_emit (by simp) fun _ _ => rfl
theorem acts_bool (us : UsDecode) (b : Bool) (st : List PObj) (ms : List (List PObj)) : Acts us (PW.emit (wBoolean b)) st ms (.val (.bool b) :: st) ms := by
  cases b
  · exact acts_emit (by simp [wBoolean]) fun _ _ => rfl
  · exact acts_emit (by simp [wBoolean]) fun _ _ => rfl
theorem acts_tuple1 (us : UsDecode) (a : PObj) (st : List PObj) (ms : List (List PObj)) : Acts us (PW.emit [133]) (a :: st) ms (.tuple [a] :: st) ms :=
  acts_emit (by simp) fun _ _ => rfl
theorem acts_tuple3 (us : UsDecode) (a b c : PObj) (st : List PObj) (ms : List (List PObj)) :
    Acts us (PW.emit [135]) (c :: b :: a :: st) ms (.tuple [a, b, c] :: st) ms :=
  acts_emit (by simp) fun _ _ => rfl
theorem acts_mark (us : UsDecode) (st : List PObj) (ms : List (List PObj)) : Acts us (PW.emit [40]) st ms [] (st :: ms) :=
  acts_emit (by simp) fun _ _ => rfl
theorem acts_tuple (us : UsDecode) (st st' : List PObj) (ms : List (List PObj)) : Acts us (PW.emit [116]) st (st' :: ms) (.tuple st.reverse :: st') ms :=
  acts_emit (by simp) fun _ _ => rfl
theorem acts_list (us : UsDecode) (st : List PObj) (ms : List (List PObj)) : Acts us (PW.emit [93]) st ms (.list [] :: st) ms :=
  acts_emit (by simp) fun _ _ => rfl
theorem acts_appends (us : UsDecode) (l st st' : List PObj) (ms : List (List PObj)) :
    Acts us (PW.emit [101]) st ((.list l :: st') :: ms) (.list (l ++ st.reverse) :: st') ms :=
  acts_emit (by simp) fun _ _ => rfl
theorem acts_reduce {us : UsDecode} {m n : List Nat} {args : List PObj} {o : PObj} (h : pReduce us m n args = .ok o)
    (st : List PObj) (ms : List (List PObj)) : Acts us (PW.emit [82]) (.tuple args :: .global m n :: st) ms (o :: st) ms := by
  apply acts_emit (by simp)
  intro r mm
  show (pReduce us m n args).bind _ = _
  rw [h]
  rfl
theorem acts_build {us : UsDecode} {inst o : PObj} {state : List PObj} (h : pBuild inst state = .ok o)
    (st : List PObj) (ms : List (List PObj)) : Acts us (PW.emit [98]) (.tuple state :: inst :: st) ms (o :: st) ms := by
  apply acts_emit (by simp)
  intro r mm
  show (pBuild inst state).bind _ = _
  rw [h]
  rfl

/-! ## the values -/

theorem acts_call {us : UsDecode} {m n b : List Nat} {o : PObj} (h : pReduce us m n [.bytes b] = .ok o) (st : List PObj) (ms : List (List PObj)) :
    Acts us wCall (.bytes b :: .global m n :: st) ms (o :: st) ms :=
  acts_cons (acts_binput _ _ _ _) <| acts_cons (acts_tuple1 _ _ _ _) <| acts_cons (acts_binput _ _ _ _) <|
    acts_cons (acts_reduce h _ _) <| acts_cons (acts_binput _ _ _ _) <| acts_nil _ _ _

/-- the length byte and the bytes are one operation -/
theorem acts_split (us : UsDecode) (a b : List Nat) (l : List PW) {st st' : List PObj} {ms ms' : List (List PObj)}
    (h : Acts us (PW.seq (PW.emit (a ++ b) :: l)) st ms st' ms') : Acts us (PW.seq (PW.emit a :: PW.emit b :: l)) st ms st' ms' := by
  intro k r mm
  obtain ⟨mm', h⟩ := h k r mm
  refine ⟨mm', ?_⟩
  simpa [PW.seq, PW.emit] using h

theorem acts_date (us : UsDecode) (y m d : Nat) (hy : y ≤ 9999) (hm : m ≤ 12) (hd : d ≤ 31) (st : List PObj) (ms : List (List PObj)) :
    Acts us (wDate y m d) st ms (.val (.date y m d) :: st) ms := by
  refine acts_cons (acts_global _ _ _ (by decide) (by decide) _ _) <| acts_cons (acts_binput _ _ _ _) <| acts_split _ _ _ _ ?_
  refine acts_cons (acts_bytes _ (wDateBody y m d) (by simp [wDateBody]) _ _) <| acts_cons (acts_call ?_ _ _) <| acts_nil _ _ _
  have e : pReduce us (txt "datetime") (txt "date") [.bytes (wDateBody y m d)] =
      .ok (.val (.date (y / 256 % 256 * 256 + y % 256) (m % 256) (d % 256))) := rfl
  rw [e, Nat.mod_eq_of_lt (show m < 256 by omega), Nat.mod_eq_of_lt (show d < 256 by omega),
    show y / 256 % 256 * 256 + y % 256 = y by omega]

/-- the microseconds the reader makes of a number below 2^24 -/
def usOf (us : UsDecode) (n : Nat) : Nat := us (n / 65536 % 256) (n / 256 % 256) (n % 256)

theorem acts_datetime (us : UsDecode) (y m d h mi s t : Nat) (hy : y ≤ 9999) (hm : m ≤ 12) (hd : d ≤ 31) (hh : h ≤ 23) (hmi : mi ≤ 59) (hs : s ≤ 60)
    (st : List PObj) (ms : List (List PObj)) :
    Acts us (wDatetime y m d h mi s t) st ms (.val (.datetime y m d h mi s (usOf us t)) :: st) ms := by
  refine acts_cons (acts_global _ _ _ (by decide) (by decide) _ _) <| acts_cons (acts_binput _ _ _ _) <| acts_split _ _ _ _ <|
    acts_split _ _ _ _ ?_
  refine acts_cons (acts_bytes _ (wDateBody y m d ++ wTimeBody h mi s t) (by simp [wDateBody, wTimeBody]) _ _) <| acts_cons (acts_call ?_ _ _) <| acts_nil _ _ _
  have e : pReduce us (txt "datetime") (txt "datetime") [.bytes (wDateBody y m d ++ wTimeBody h mi s t)] =
      .ok (.val (.datetime (y / 256 % 256 * 256 + y % 256) (m % 256) (d % 256) (h % 256) (mi % 256) (s % 256) (usOf us t))) := rfl
  rw [e, Nat.mod_eq_of_lt (show m < 256 by omega), Nat.mod_eq_of_lt (show d < 256 by omega), Nat.mod_eq_of_lt (show h < 256 by omega),
    Nat.mod_eq_of_lt (show mi < 256 by omega), Nat.mod_eq_of_lt (show s < 256 by omega),
    show y / 256 % 256 * 256 + y % 256 = y by omega]

theorem acts_time (us : UsDecode) (t : Nat) (ht : t < 86400000000) (st : List PObj) (ms : List (List PObj)) :
    Acts us (wTime t) st ms (.val (.time (t / 1000000 * 1000000 + usOf us (t % 1000000))) :: st) ms := by
  refine acts_cons (acts_global _ _ _ (by decide) (by decide) _ _) <| acts_cons (acts_binput _ _ _ _) <| acts_split _ _ _ _ ?_
  refine acts_cons (acts_bytes _ (wTimeBody (timeHour t) (timeMinute t) (timeSecond t) (timeMicro t)) (by simp [wTimeBody]) _ _) <|
    acts_cons (acts_call ?_ _ _) <| acts_nil _ _ _
  have e : pReduce us (txt "datetime") (txt "time") [.bytes (wTimeBody (timeHour t) (timeMinute t) (timeSecond t) (timeMicro t))] =
      .ok (.val (.time (timeHour t % 256 * 3600000000 + timeMinute t % 256 * 60000000 + timeSecond t % 256 * 1000000 + usOf us (timeMicro t)))) := rfl
  have h0 : timeMicro t = t % 1000000 := by rw [timeMicro]; omega
  have h1 : timeHour t % 256 * 3600000000 + timeMinute t % 256 * 60000000 + timeSecond t % 256 * 1000000 = t / 1000000 * 1000000 := by
    rw [timeHour, timeMinute, timeSecond]
    omega
  rw [e, h0, h1]

/-- C69: what one value becomes -/
theorem acts_obj (us : UsDecode) (v : ObjV) (hv : v.Fits) (st : List PObj) (ms : List (List PObj)) :
    Acts us (wObj v) st ms (.val (distort (usOf us) v) :: st) ms := by
  cases v with
  | none => exact acts_none _ _ _
  | bool b => exact acts_bool _ b _ _
  | int z => exact acts_binint _ z _ _
  | float bits => exact acts_binfloat _ bits hv _ _
  | str b => exact acts_binunicode _ b hv _ _
  | date y m d => exact acts_date _ y m d hv.1 hv.2.1 hv.2.2 _ _
  | time t => exact acts_time _ t hv _ _
  | datetime y m d h mi s t => exact acts_datetime _ y m d h mi s t hv.1 hv.2.1 hv.2.2.1 hv.2.2.2.1 hv.2.2.2.2.1 hv.2.2.2.2.2.1 _ _

theorem acts_objs (us : UsDecode) (vs : List ObjV) (hv : ∀ v ∈ vs, v.Fits) (st : List PObj) (ms : List (List PObj)) :
    Acts us (PW.seq (vs.map wObj)) st ms ((vs.map fun v => PObj.val (distort (usOf us) v)).reverse ++ st) ms := by
  induction vs generalizing st with
  | nil => exact acts_nil _ _ _
  | cons v l ih =>
    have h2 := ih (fun x hx => hv x (by simp [hx])) (.val (distort (usOf us) v) :: st)
    refine acts_cons (acts_obj us v (hv v (by simp)) st ms) ?_
    simpa using h2

theorem acts_startA (us : UsDecode) : Acts us wStartA [] [] [.val (.int 1)] [[.array [] [] []]] :=
  acts_cons (acts_proto _ _ _) <| acts_cons (acts_global _ _ _ (by decide) (by decide) _ _) <| acts_cons (acts_binput _ _ _ _) <|
  acts_cons (acts_global _ _ _ (by decide) (by decide) _ _) <| acts_cons (acts_binput _ _ _ _) <| acts_cons (acts_binint _ _ _ _) <|
  acts_cons (acts_tuple1 _ _ _ _) <| acts_cons (acts_binput _ _ _ _) <| acts_cons (acts_bytes _ _ (by decide) _ _) <|
  acts_cons (acts_binput _ _ _ _) <| acts_cons (acts_tuple3 _ _ _ _ _ _) <| acts_cons (acts_binput _ _ _ _) <|
  acts_cons (acts_reduce rfl _ _) <| acts_cons (acts_binput _ _ _ _) <| acts_cons (acts_mark _ _ _) <|
  acts_cons (acts_binint _ _ _ _) <| acts_nil _ _ _

theorem acts_startB (us : UsDecode) (n : PObj) (st : List PObj) (ms : List (List PObj)) :
    Acts us wStartB (n :: st) ms (.list [] :: .val (.bool false) :: .dtype (txt "O8") :: .tuple [n] :: st) ms :=
  acts_cons (acts_tuple1 _ _ _ _) <| acts_cons (acts_binput _ _ _ _) <| acts_cons (acts_global _ _ _ (by decide) (by decide) _ _) <|
  acts_cons (acts_binput _ _ _ _) <| acts_cons (acts_binunicode _ _ (by decide) _ _) <| acts_cons (acts_binput _ _ _ _) <|
  acts_cons (acts_bool _ _ _ _) <| acts_cons (acts_bool _ _ _ _) <| acts_cons (acts_tuple3 _ _ _ _ _ _) <| acts_cons (acts_binput _ _ _ _) <|
  acts_cons (acts_reduce rfl _ _) <| acts_cons (acts_binput _ _ _ _) <| acts_cons (acts_mark _ _ _) <| acts_cons (acts_binint _ _ _ _) <|
  acts_cons (acts_binunicode _ _ (by decide) _ _) <| acts_cons (acts_binput _ _ _ _) <| acts_cons (acts_none _ _ _) <| acts_cons (acts_none _ _ _) <|
  acts_cons (acts_none _ _ _) <| acts_cons (acts_binint _ _ _ _) <| acts_cons (acts_binint _ _ _ _) <| acts_cons (acts_binint _ _ _ _) <|
  acts_cons (acts_tuple _ _ _ _) <| acts_cons (acts_binput _ _ _ _) <| acts_cons (acts_build rfl _ _) <| acts_cons (acts_bool _ _ _ _) <|
  acts_cons (acts_list _ _ _) <| acts_cons (acts_binput _ _ _ _) <| acts_nil _ _ _

theorem pVals_map (vs : List ObjV) : pVals (vs.map PObj.val) = .ok vs := by
  induction vs with
  | nil => rfl
  | cons v l ih => rw [List.map_cons, pVals, ih]; rfl

/-- running to the end -/
theorem pRun_of_runs {us : UsDecode} {file : List Nat} {st : List PObj} {ms : List (List PObj)} {mm : List (Nat × PObj)} {o : PObj}
    (h : Runs us ⟨file, [], [], []⟩ ⟨[46], o :: st, ms, mm⟩) : pRun us file.length ⟨file, [], [], []⟩ = .ok o := by
  obtain ⟨n, hn, h⟩ := h
  simp only [List.length_cons, List.length_nil] at hn
  obtain ⟨f, hf⟩ : ∃ f, file.length = n + (f + 1) := ⟨file.length - n - 1, by omega⟩
  rw [hf, h]
  rfl

theorem acts_finish (us : UsDecode) {w : PW} {st : List PObj} {ms : List (List PObj)} {o : PObj} (h : Acts us w [] [] (o :: st) ms) :
    pRun us ((w 0).1 ++ [46]).length ⟨(w 0).1 ++ [46], [], [], []⟩ = .ok o := by
  obtain ⟨mm, h⟩ := h 0 [46] []
  exact pRun_of_runs h

/-- the writer without the final stop byte -/
def wBody (vs : List ObjV) : PW :=
  PW.seq [wStartA, PW.emit (wBinint vs.length), wStartB, PW.emit (if vs.length > 0 then [40] else []), PW.seq (vs.map wObj),
    PW.emit (if vs.length > 0 then [101] else []), PW.emit [116], wBinput, PW.emit [98]]

theorem pickleWrite_eq (vs : List ObjV) : pickleWrite vs = (wBody vs 0).1 ++ [46] := by
  simp [pickleWrite, wBody, PW.seq, wStart, wFinish, PW.emit]

theorem kindCounts_count (vs : List ObjV) (k : ObjKind) :
    dGet k (kindCounts vs) = if k ∈ vs.map ObjV.kind then some ((vs.map ObjV.kind).count k) else none := by
  induction vs using List.reverseRecOn with
  | nil => simp [kindCounts, dGet]
  | append_singleton l v ih =>
    have e : kindCounts (l ++ [v]) = dUpd 0 v.kind (· + 1) (kindCounts l) := by
      rw [kindCounts, List.foldl_append]; rfl
    rw [e, dGet_upd]
    rw [List.map_append, List.count_append]
    by_cases hk : k = v.kind
    · subst hk
      by_cases hm : v.kind ∈ l.map ObjV.kind
      · rw [if_pos rfl, ih, if_pos hm]
        simp
      · rw [if_pos rfl, ih, if_neg hm]
        simp [List.count_eq_zero.2 hm]
    · rw [if_neg hk, ih]
      have : ¬ v.kind = k := fun e => hk e.symm
      simp [hk, this]

theorem acts_body (us : UsDecode) (vs : List ObjV) (hv : ∀ v ∈ vs, v.Fits) (hn : vs.length < 2 ^ 31) :
    Acts us (wBody vs) [] [] [.array [(vs.length : Int)] (txt "O8") (vs.map fun v => PObj.val (distort (usOf us) v))] [] := by
  have hw : wrap32 (vs.length : Int) = vs.length := by rw [wrap32]; omega
  refine acts_cons (acts_startA us) <| acts_cons (acts_binint _ _ _ _) <| acts_cons (acts_startB _ _ _ _) ?_
  rw [hw]
  have htail : ∀ l, Acts us (PW.seq [PW.emit [116], wBinput, PW.emit [98]])
      [.list l, .val (.bool false), .dtype (txt "O8"), .tuple [.val (.int vs.length)], .val (.int 1)] [[.array [] [] []]]
      [.array [(vs.length : Int)] (txt "O8") l] [] := fun l =>
    acts_cons (acts_tuple _ _ _ _) <| acts_cons (acts_binput _ _ _ _) <| acts_cons (acts_build rfl _ _) <| acts_nil _ _ _
  cases vs with
  | nil =>
    exact acts_cons (acts_skip _ _ _) <| acts_cons (acts_nil _ _ _) <| acts_cons (acts_skip _ _ _) (htail [])
  | cons v l =>
    rw [if_pos (by simp), if_pos (by simp)]
    refine acts_cons (acts_mark _ _ _) <| acts_cons (acts_objs us _ hv _ _) <| acts_cons (acts_appends _ _ _ _ _) ?_
    rw [List.append_nil, List.reverse_reverse, List.nil_append]
    exact htail _

/-- C69: an object page read back by the Nim code (or, with `pyUs`, by Python) is the list written, in order and with its
length, where integers are cut to 32 bits and the microseconds are decoded by `us` -/
theorem C69_exact (us : UsDecode) (vs : List ObjV) (hv : ∀ v ∈ vs, v.Fits) (hn : vs.length < 2 ^ 31) :
    pickleRead us (pickleWrite vs) = .ok ⟨[(vs.length : Int)], vs.map (distort (usOf us)), kindCounts (vs.map (distort (usOf us)))⟩ := by
  rw [pickleRead, pickleWrite_eq, acts_finish us (acts_body us vs hv hn)]
  rw [Except.bind, pConstruct]
  rw [show (vs.map fun v => PObj.val (distort (usOf us) v)) = (vs.map (distort (usOf us))).map PObj.val by simp, pVals_map]
  rfl

/-- what the Nim reader makes of microseconds: 256 times too many -/
theorem usOf_nim (n : Nat) (h : n < 2 ^ 24) : usOf nimUs n = n * 256 := by
  rw [usOf, nimUs]
  omega

/-- Python reads them right -/
theorem usOf_py (n : Nat) (h : n < 2 ^ 24) : usOf pyUs n = n := by
  rw [usOf, pyUs]
  omega

theorem wrap32_iff (z : Int) : wrap32 z = z ↔ -2147483648 ≤ z ∧ z < 2147483648 := by
  rw [wrap32]
  omega

/-- the values that survive the Nim reader: integers of 32 bits, times and datetimes of whole seconds -/
def ObjV.Plain : ObjV → Prop
  | .int z => -2147483648 ≤ z ∧ z < 2147483648
  | .time t => t % 1000000 = 0
  | .datetime _ _ _ _ _ _ t => t = 0
  | _ => True

theorem distort_iff (v : ObjV) (hv : v.Fits) : distort (usOf nimUs) v = v ↔ v.Plain := by
  cases v with
  | int z => simp only [distort, ObjV.int.injEq, ObjV.Plain, wrap32_iff]
  | time t =>
    simp only [distort, ObjV.time.injEq, ObjV.Plain]
    rw [usOf_nim _ (by omega)]
    omega
  | datetime y m d h mi s t =>
    have ht : t ≤ 999999 := hv.2.2.2.2.2.2
    simp only [distort, ObjV.datetime.injEq, ObjV.Plain, true_and]
    rw [usOf_nim _ (by omega)]
    omega
  | _ => simp [distort, ObjV.Plain]

/-- C69: which pages come back as written, exactly: those without integers beyond 32 bits and without fractions of a second -/
theorem C69_iff (vs : List ObjV) (hv : ∀ v ∈ vs, v.Fits) (hn : vs.length < 2 ^ 31) :
    ((pickleRead nimUs (pickleWrite vs)).map ObjPage.vals = .ok vs) ↔ ∀ v ∈ vs, v.Plain := by
  rw [C69_exact nimUs vs hv hn]
  simp only [Except.map, Except.ok.injEq]
  constructor
  · intro h v hm
    rw [← distort_iff v (hv v hm)]
    have h' : vs.map (distort (usOf nimUs)) = vs.map id := by rw [h, List.map_id]
    exact List.map_inj_left.1 h' v hm
  · intro h
    conv_rhs => rw [← List.map_id vs]
    exact List.map_congr_left fun v hm => (distort_iff v (hv v hm)).2 (h v hm)

/-- the whole claim: every list of values Nim can hold, integers of 64 bits included, comes back as written, with its
length and the number of values of each kind -/
def C69_statement : Prop :=
  ∀ vs : List ObjV, (∀ v ∈ vs, v.Fits) → (∀ z, ObjV.int z ∈ vs → -2 ^ 63 ≤ z ∧ z < 2 ^ 63) → vs.length < 2 ^ 31 →
    ∃ p, pickleRead nimUs (pickleWrite vs) = .ok p ∧ p.shape = [(vs.length : Int)] ∧ p.vals = vs ∧
      ∀ k, (dGet k p.counts).getD 0 = (vs.map ObjV.kind).count k

/-- C69: the claim holds for pages without integers beyond 32 bits and without fractions of a second. Missing: those -/
theorem C69_partial (vs : List ObjV) (hv : ∀ v ∈ vs, v.Fits) (hp : ∀ v ∈ vs, v.Plain) (hn : vs.length < 2 ^ 31) :
    ∃ p, pickleRead nimUs (pickleWrite vs) = .ok p ∧ p.shape = [(vs.length : Int)] ∧ p.vals = vs ∧
      ∀ k, (dGet k p.counts).getD 0 = (vs.map ObjV.kind).count k := by
  have e : vs.map (distort (usOf nimUs)) = vs := by
    conv_rhs => rw [← List.map_id vs]
    exact List.map_congr_left fun v hm => (distort_iff v (hv v hm)).2 (hp v hm)
  refine ⟨_, C69_exact nimUs vs hv hn, rfl, e, ?_⟩
  intro k
  dsimp only
  rw [e, kindCounts_count]
  split
  · rfl
  · next h => simp [List.count_eq_zero.2 h]

/-- C69: a file written by Nim and read by a reader that decodes microseconds as Python does keeps them -/
theorem C69_python (vs : List ObjV) (hv : ∀ v ∈ vs, v.Fits) (hi : ∀ z, ObjV.int z ∈ vs → -2147483648 ≤ z ∧ z < 2147483648) (hn : vs.length < 2 ^ 31) :
    (pickleRead pyUs (pickleWrite vs)).map ObjPage.vals = .ok vs := by
  rw [C69_exact pyUs vs hv hn]
  simp only [Except.map, Except.ok.injEq]
  conv_rhs => rw [← List.map_id vs]
  apply List.map_congr_left
  intro v hm
  have hf := hv v hm
  cases v with
  | int z => simp only [distort, id, ObjV.int.injEq, wrap32_iff]; exact hi z hm
  | time t =>
    simp only [distort, id, ObjV.time.injEq]
    rw [usOf_py _ (by omega)]
    omega
  | datetime y m d h mi s t =>
    have ht : t ≤ 999999 := hf.2.2.2.2.2.2
    simp only [distort, id, ObjV.datetime.injEq, true_and]
    rw [usOf_py _ (by omega)]
  | _ => rfl

/-- C69: 2147483648 beside a `None` comes back negative -/
theorem C69_int_fails : (pickleRead nimUs (pickleWrite [.none, .int 2147483648])).map ObjPage.vals = .ok [.none, .int (-2147483648)] := by
  rw [C69_exact nimUs _ (by simp [ObjV.Fits]) (by decide)]
  rfl

/-- C69: one microsecond comes back as 256 -/
theorem C69_us_fails : (pickleRead nimUs (pickleWrite [.none, .datetime 2024 2 29 23 59 58 1])).map ObjPage.vals =
    .ok [.none, .datetime 2024 2 29 23 59 58 256] := by
  rw [C69_exact nimUs _ (by simp [ObjV.Fits]) (by decide)]
  rfl

/-- C69: the whole claim is false -/
theorem C69_fails : ¬ C69_statement := by
  intro h
  obtain ⟨p, e, -, hv, -⟩ := h [.none, .int 2147483648] (by simp [ObjV.Fits]) (by simp) (by decide)
  have := C69_int_fails
  rw [e] at this
  simp only [Except.map, Except.ok.injEq] at this
  rw [hv] at this
  simp at this

/-- the hypotheses of `C69_partial` and `C69_exact` hold of a page with every kind of value -/
example : let vs := [ObjV.none, .bool true, .int (-2147483648), .int 70000, .float 4607182418800017408, .str [104, 105], .date 2024 2 29,
      .time 86399000000, .datetime 1999 12 31 23 59 59 0]
    (∀ v ∈ vs, v.Fits) ∧ (∀ v ∈ vs, v.Plain) ∧ vs.length < 2 ^ 31 := by
  simp [ObjV.Fits, ObjV.Plain]

end Tablite
