import Verif.Spec.XcodeFlags
import Verif.Props.Build
import Mathlib.Data.List.Induction
/-
C93: the flags for compilers that follow from `xcode_settings`.
-/
namespace Gyp
open Spec

theorem mem_flagIf (f g : Str) (b : Bool) : f ∈ flagIf b g ↔ b = true ∧ f = g := by
  cases b <;> simp [flagIf]

theorem xTest_on (s : XSettings) (k v d : Str) :
    xTest s k v d = true ↔ aget s k = some (.text v) ∨ (aget s k = none ∧ d = v) := by
  unfold xTest
  cases h : aget s k <;> simp

theorem switch_on (s : XSettings) (w : XcodeSwitch) (d : Str) (h : w.whenUnset = decide (d = w.value)) :
    xTest s w.setting w.value d = true ↔ w.On s := by
  rw [xTest_on, XcodeSwitch.On, h]; simp

/-- What the flags are, when there is no exception. -/
theorem cflags_some {repr m s dirs platform l} (h : xcodeCflags repr m s dirs platform = some l) :
    ∃ root debug min, sdkRoot s = some root ∧ debugFlag s = some debug ∧ platformMin repr m s root = some min ∧
      l = ((if c!"SDKROOT" ∈ akeys s ∧ (sdkPathOf m root).getD [] ≠ [] then [c!"-isysroot", (sdkPathOf m root).getD []] else []) ++
    flagIf (xTest s c!"CLANG_WARN_CONSTANT_CONVERSION" c!"YES" c!"NO") c!"-Wconstant-conversion" ++
    flagIf (xTest s c!"GCC_CHAR_IS_UNSIGNED_CHAR" c!"YES" c!"NO") c!"-funsigned-char" ++
    flagIf (xTest s c!"GCC_CW_ASM_SYNTAX" c!"YES" c!"YES") c!"-fasm-blocks" ++
    flagIf (xTest s c!"GCC_DYNAMIC_NO_PIC" c!"YES" []) c!"-mdynamic-no-pic" ++
    flagIf (xTest s c!"GCC_ENABLE_PASCAL_STRINGS" c!"YES" c!"YES") c!"-mpascal-strings" ++
    xAppendf repr s c!"GCC_OPTIMIZATION_LEVEL" c!"-O" c!"s" ++
    debug ++
    (if xTest s c!"GCC_STRICT_ALIASING" c!"YES" [] then [c!"-fstrict-aliasing"]
      else flagIf (xTest s c!"GCC_STRICT_ALIASING" c!"NO" []) c!"-fno-strict-aliasing") ++
    flagIf (xTest s c!"GCC_SYMBOLS_PRIVATE_EXTERN" c!"YES" c!"NO") c!"-fvisibility=hidden" ++
    flagIf (xTest s c!"GCC_TREAT_WARNINGS_AS_ERRORS" c!"YES" c!"NO") c!"-Werror" ++
    flagIf (xTest s c!"GCC_WARN_ABOUT_MISSING_NEWLINE" c!"YES" c!"NO") c!"-Wnewline-eof" ++
    flagIf (xTest s c!"LLVM_LTO" c!"YES" c!"NO") c!"-flto" ++
    min ++
    archFlags m s root platform ++
    xItems (aget s c!"WARNING_CFLAGS") ++
    dirs.map fun d => c!"-F" ++ replaceStr c!"$(SDKROOT)" ((sdkPathOf m root).getD []) d) := by
  simp only [xcodeCflags, Option.bind_eq_bind, Option.bind_eq_some_iff] at h
  obtain ⟨root, h1, debug, h2, min, h3, h4⟩ := h
  exact ⟨root, debug, min, h1, h2, h3, (Option.some.inj h4).symm⟩

/-- The flags for debugging. -/
theorem debug_mem {s debug f} (h : debugFlag s = some debug) :
    f ∈ debug ↔ xTest s c!"GCC_GENERATE_DEBUGGING_SYMBOLS" c!"YES" c!"YES" = true ∧ f = c!"-gdwarf-2" := by
  unfold debugFlag at h
  by_cases ht : xTest s c!"GCC_GENERATE_DEBUGGING_SYMBOLS" c!"YES" c!"YES" = true
  · rw [if_pos ht] at h
    simp only [ht, true_and]
    dsimp only at h
    split at h
    · cases h; simp
    · split at h
      · cases h
      · split at h
        · cases h; simp
        · cases h
  · rw [if_neg ht] at h
    cases h; simp [ht]

/-- The flags for the versions of the systems begin so. -/
theorem min_mem {repr m s root min f} (h : platformMin repr m s root = some min) (hf : f ∈ min) :
    (∃ v, aget s c!"MACOSX_DEPLOYMENT_TARGET" = some v ∧ f = c!"-mmacosx-version-min=" ++ xText repr v) ∨
    (∃ v, aget s c!"IPHONEOS_DEPLOYMENT_TARGET" = some v ∧
      (f = c!"-mios-simulator-version-min=" ++ xText repr v ∨ f = c!"-miphoneos-version-min=" ++ xText repr v)) := by
  have hmac : ∀ f ∈ xAppendf repr s c!"MACOSX_DEPLOYMENT_TARGET" c!"-mmacosx-version-min=" [],
      ∃ v, aget s c!"MACOSX_DEPLOYMENT_TARGET" = some v ∧ f = c!"-mmacosx-version-min=" ++ xText repr v := by
    intro f hf
    unfold xAppendf at hf
    cases ha : aget s c!"MACOSX_DEPLOYMENT_TARGET" with
    | none => rw [ha] at hf; simp at hf
    | some v => rw [ha] at hf; exact ⟨v, rfl, by simpa using hf⟩
  unfold platformMin at h
  cases hi : aget s c!"IPHONEOS_DEPLOYMENT_TARGET" with
  | none => simp only [hi, Option.some.injEq] at h; subst h; exact Or.inl (hmac f hf)
  | some v =>
    simp only [hi] at h
    cases hp : sdkPathOf m root with
    | none => simp [hp] at h
    | some p =>
      simp only [hp] at h
      split at h
      all_goals
        simp only [Option.some.injEq] at h; subst h
        rcases List.mem_append.1 hf with hf | hf
        · exact Or.inl (hmac f hf)
        · refine Or.inr ⟨v, rfl, ?_⟩
          simp only [List.mem_singleton] at hf
          simp [hf]

theorem min_mem' {repr m s root min v} (h : platformMin repr m s root = some min)
    (hv : aget s c!"MACOSX_DEPLOYMENT_TARGET" = some v) : c!"-mmacosx-version-min=" ++ xText repr v ∈ min := by
  have hmac : c!"-mmacosx-version-min=" ++ xText repr v ∈
      xAppendf repr s c!"MACOSX_DEPLOYMENT_TARGET" c!"-mmacosx-version-min=" [] := by
    unfold xAppendf; rw [hv]; simp
  unfold platformMin at h
  cases hi : aget s c!"IPHONEOS_DEPLOYMENT_TARGET" with
  | none => simp only [hi, Option.some.injEq] at h; subst h; exact hmac
  | some v =>
    simp only [hi] at h
    cases hp : sdkPathOf m root with
    | none => simp [hp] at h
    | some p =>
      simp only [hp] at h
      split at h
      all_goals
        simp only [Option.some.injEq] at h; subst h
        exact List.mem_append_left _ hmac

/-! ### Architectures -/

theorem mem_addNew (l : List Str) (a x : Str) : x ∈ addNew l a ↔ x ∈ l ∨ x = a := by
  unfold addNew; split
  · rename_i h; constructor
    · exact Or.inl
    · rintro (h' | rfl); exacts [h', h]
  · simp

theorem nodup_addNew (l : List Str) (a : Str) (h : l.Nodup) : (addNew l a).Nodup := by
  unfold addNew; split
  · exact h
  · rename_i hn
    rw [List.nodup_append]
    exact ⟨h, by simp, by simp only [List.mem_singleton]; rintro x hx y rfl rfl; exact hn hx⟩

theorem mem_foldl_addNew (l : List Str) : ∀ (out : List Str) (x : Str),
    x ∈ l.foldl addNew out ↔ x ∈ out ∨ x ∈ l := by
  induction l with
  | nil => simp
  | cons a l ih => intro out x; simp only [List.foldl_cons, ih, mem_addNew, List.mem_cons]; tauto

theorem nodup_foldl_addNew (l : List Str) : ∀ (out : List Str), out.Nodup → (l.foldl addNew out).Nodup := by
  induction l with
  | nil => simp
  | cons a l ih => intro out h; exact ih _ (nodup_addNew _ _ h)

/-- The step of `_ExpandArchs`. -/
def archStep (mapping : List (Str × List Str)) (out : List Str) (arch : Str) : List Str :=
    if archVariable arch then
      match aget mapping arch with
      | some l => l.foldl addNew out
      | none => out
    else addNew out arch

theorem archStep_mem (mapping out arch) (x : Str) :
    x ∈ archStep mapping out arch ↔ x ∈ out ∨
      (if archVariable arch = true then ∃ l, aget mapping arch = some l ∧ x ∈ l else x = arch) := by
  unfold archStep
  by_cases h : archVariable arch = true
  · simp only [h, if_true]
    cases aget mapping arch with
    | none => simp
    | some l => simp [mem_foldl_addNew]
  · simp [h, mem_addNew]

theorem archStep_nodup (mapping out arch) (h : out.Nodup) : (archStep mapping out arch).Nodup := by
  unfold archStep
  split
  · cases aget mapping arch with
    | none => exact h
    | some l => exact nodup_foldl_addNew _ _ h
  · exact nodup_addNew _ _ h

theorem expandArchs_eq (mapping archs) : expandArchs mapping archs = archs.foldl (archStep mapping) [] := rfl

theorem mem_foldl_archStep (mapping) (archs : List Str) : ∀ (out : List Str) (x : Str),
    x ∈ archs.foldl (archStep mapping) out ↔ x ∈ out ∨ ∃ a ∈ archs,
      (if archVariable a = true then ∃ l, aget mapping a = some l ∧ x ∈ l else x = a) := by
  induction archs with
  | nil => simp
  | cons a l ih =>
    intro out x
    simp only [List.foldl_cons, ih, archStep_mem, List.exists_mem_cons_iff]; tauto

theorem nodup_expandArchs (mapping archs) : (expandArchs mapping archs).Nodup := by
  rw [expandArchs_eq]
  induction archs using List.reverseRecOn with
  | nil => simp
  | append_singleton l a ih => rw [List.foldl_append]; exact archStep_nodup _ _ _ ih

theorem mem_expandArchs (mapping archs) (x : Str) :
    x ∈ expandArchs mapping archs ↔ ∃ a ∈ archs,
      (if archVariable a = true then ∃ l, aget mapping a = some l ∧ x ∈ l else x = a) := by
  rw [expandArchs_eq, mem_foldl_archStep]; simp

/-- No architecture a variable stands for begins with a dash. -/
theorem archMapping_plain (version sdk key : Str) (l : List Str) (h : aget (archMapping version sdk) key = some l) :
    ∀ x ∈ l, startsWith x c!"-" = false := by
  have hm := aget_some_mem h
  have key : (∀ p ∈ (archsDefault version).2.1, ∀ x ∈ p.2, startsWith x c!"-" = false) ∧
      (∀ p ∈ (archsDefault version).2.2.1, ∀ x ∈ p.2, startsWith x c!"-" = false) ∧
      (∀ p ∈ (archsDefault version).2.2.2, ∀ x ∈ p.2, startsWith x c!"-" = false) := by
    unfold archsDefault
    split
    · decide
    · split
      · decide
      · decide
  unfold archMapping at hm
  dsimp only at hm
  split at hm
  · exact key.2.2 _ hm
  · split at hm
    · exact key.2.1 _ hm
    · exact key.1 _ hm

theorem activeArchs_odd (m : XMachine) (s : XSettings) (root f : Str) (hd : startsWith f c!"-" = true)
    (hf : f ∉ xItems (aget s c!"ARCHS")) : f ∉ activeArchs m s root := by
  intro h
  have h' : f ∈ expandArchs (archMapping m.xcodeVersion root)
      (if xTruthy (aget s c!"ARCHS") then xItems (aget s c!"ARCHS") else [(archsDefault m.xcodeVersion).1]) := by
    unfold activeArchs at h
    simp only at h
    split at h
    · exact h
    · split at h
      · exact (List.mem_filter.1 h).1
      · exact h
  rw [mem_expandArchs] at h'
  obtain ⟨a, ha, hx⟩ := h'
  split at hx
  · obtain ⟨l, hl, hx⟩ := hx
    have := archMapping_plain _ _ _ _ hl f hx
    rw [hd] at this; cases this
  · subst hx
    split at ha
    · exact hf ha
    · simp only [List.mem_singleton] at ha
      subst ha
      revert hd
      unfold archsDefault
      split_ifs <;> decide

theorem archOf_odd (m : XMachine) (s : XSettings) (root f : Str) (platform : Option Str)
    (hd : startsWith f c!"-" = true) (hf : f ∉ xItems (aget s c!"ARCHS")) (hp : platform ≠ some f) :
    archOf m s root platform ≠ f := by
  intro h
  unfold archOf at h
  split at h
  · rename_i a ha
    subst h
    cases platform with
    | none =>
      have : a ∈ activeArchs m s root := by
        have ha : activeArchs m s root = [a] := ha
        simp [ha]
      exact activeArchs_odd m s root a hd hf this
    | some p =>
      have : [p] = [a] := ha
      simp only [List.cons.injEq, and_true] at this
      exact hp (by rw [this])
  · subst h; revert hd; decide

theorem sdk_odd {m : XMachine} {s : XSettings} {root f : Str} (hr : sdkRoot s = some root)
    (hd : startsWith f c!"-" = true) (h1 : ∀ root, m.sdkPath root ≠ some f)
    (h2 : aget s c!"SDKROOT" ≠ some (.text f)) : (sdkPathOf m root).getD [] ≠ f := by
  unfold sdkPathOf
  split
  · rename_i hs
    intro h
    simp only [Option.getD_some] at h
    subst h
    have : ∀ c : Str, startsWith c c!"/" = true → startsWith c c!"-" = true → False := by
      intro c
      cases c with
      | nil => simp [startsWith]
      | cons a c => simp [startsWith]; rintro rfl; decide
    exact this _ hs hd
  · cases hp : m.sdkPath root with
    | none => simp only [Option.getD_none]; intro h; subst h; revert hd; decide
    | some p => simp only [Option.getD_some]; intro h; subst h; exact h1 root hp

set_option maxHeartbeats 1000000 in
/-- What the flags are, apart from those written by the user. -/
theorem cflags_mem {repr m s dirs platform l} (h : xcodeCflags repr m s dirs platform = some l) (f : Str)
    (hd : startsWith f c!"-" = true) (hF : startsWith f c!"-F" = false) (hn : NotWritten m s platform f) :
    ∃ root debug min, sdkRoot s = some root ∧ debugFlag s = some debug ∧ platformMin repr m s root = some min ∧
    (f ∈ l ↔
      (c!"SDKROOT" ∈ akeys s ∧ (sdkPathOf m root).getD [] ≠ [] ∧ f = c!"-isysroot") ∨
    (xTest s c!"CLANG_WARN_CONSTANT_CONVERSION" c!"YES" c!"NO" = true ∧ f = c!"-Wconstant-conversion") ∨
    (xTest s c!"GCC_CHAR_IS_UNSIGNED_CHAR" c!"YES" c!"NO" = true ∧ f = c!"-funsigned-char") ∨
    (xTest s c!"GCC_CW_ASM_SYNTAX" c!"YES" c!"YES" = true ∧ f = c!"-fasm-blocks") ∨
    (xTest s c!"GCC_DYNAMIC_NO_PIC" c!"YES" [] = true ∧ f = c!"-mdynamic-no-pic") ∨
    (xTest s c!"GCC_ENABLE_PASCAL_STRINGS" c!"YES" c!"YES" = true ∧ f = c!"-mpascal-strings") ∨
    f ∈ xAppendf repr s c!"GCC_OPTIMIZATION_LEVEL" c!"-O" c!"s" ∨
    (xTest s c!"GCC_GENERATE_DEBUGGING_SYMBOLS" c!"YES" c!"YES" = true ∧ f = c!"-gdwarf-2") ∨
    (xTest s c!"GCC_STRICT_ALIASING" c!"YES" [] = true ∧ f = c!"-fstrict-aliasing") ∨
    (xTest s c!"GCC_STRICT_ALIASING" c!"NO" [] = true ∧ f = c!"-fno-strict-aliasing") ∨
    (xTest s c!"GCC_SYMBOLS_PRIVATE_EXTERN" c!"YES" c!"NO" = true ∧ f = c!"-fvisibility=hidden") ∨
    (xTest s c!"GCC_TREAT_WARNINGS_AS_ERRORS" c!"YES" c!"NO" = true ∧ f = c!"-Werror") ∨
    (xTest s c!"GCC_WARN_ABOUT_MISSING_NEWLINE" c!"YES" c!"NO" = true ∧ f = c!"-Wnewline-eof") ∨
    (xTest s c!"LLVM_LTO" c!"YES" c!"NO" = true ∧ f = c!"-flto") ∨
    f ∈ min ∨
    (m.crossCompile = false ∧ (f = c!"-arch" ∨
      (archOf m s root platform = c!"i386" ∨ archOf m s root platform = c!"x86_64") ∧
      ((xTest s c!"GCC_ENABLE_SSE3_EXTENSIONS" c!"YES" c!"NO" = true ∧ f = c!"-msse3") ∨
      (xTest s c!"GCC_ENABLE_SUPPLEMENTAL_SSE3_INSTRUCTIONS" c!"YES" c!"NO" = true ∧ f = c!"-mssse3") ∨
      (xTest s c!"GCC_ENABLE_SSE41_EXTENSIONS" c!"YES" c!"NO" = true ∧ f = c!"-msse4.1") ∨
      (xTest s c!"GCC_ENABLE_SSE42_EXTENSIONS" c!"YES" c!"NO" = true ∧ f = c!"-msse4.2"))))) := by
  obtain ⟨root, debug, min, h1, h2, h3, rfl⟩ := cflags_some h
  refine ⟨root, debug, min, h1, h2, h3, ?_⟩
  obtain ⟨n1, n2, n3, n4, n5⟩ := hn
  have e1 : f ≠ (sdkPathOf m root).getD [] := fun e => sdk_odd h1 hd n2 n3 e.symm
  have e2 : f ≠ archOf m s root platform := fun e => archOf_odd m s root f platform hd n4 n5 e.symm
  have e3 : f ∉ dirs.map fun d => c!"-F" ++ replaceStr c!"$(SDKROOT)" ((sdkPathOf m root).getD []) d := by
    intro hm
    obtain ⟨d, _, rfl⟩ := List.mem_map.1 hm
    simp [startsWith] at hF
  have e4 : f ∈ (if xTest s c!"GCC_STRICT_ALIASING" c!"YES" [] then [c!"-fstrict-aliasing"]
      else flagIf (xTest s c!"GCC_STRICT_ALIASING" c!"NO" []) c!"-fno-strict-aliasing") ↔
      ((xTest s c!"GCC_STRICT_ALIASING" c!"YES" [] = true ∧ f = c!"-fstrict-aliasing") ∨
    (xTest s c!"GCC_STRICT_ALIASING" c!"NO" [] = true ∧ f = c!"-fno-strict-aliasing")) := by
    by_cases hy : xTest s c!"GCC_STRICT_ALIASING" c!"YES" [] = true
    · have hno : xTest s c!"GCC_STRICT_ALIASING" c!"NO" [] = false := by
        rw [xTest_on] at hy
        rcases hy with hy | hy
        · simp [xTest, hy]
        · simp at hy
      simp [hy, hno]
    · simp [hy, mem_flagIf]
  have e5 : f ∈ (if c!"SDKROOT" ∈ akeys s ∧ (sdkPathOf m root).getD [] ≠ [] then [c!"-isysroot", (sdkPathOf m root).getD []] else []) ↔
      (c!"SDKROOT" ∈ akeys s ∧ (sdkPathOf m root).getD [] ≠ [] ∧ f = c!"-isysroot") := by
    split
    · rename_i hc
      simp only [List.mem_cons, List.not_mem_nil, or_false, e1]
      exact ⟨fun e => ⟨hc.1, hc.2, e⟩, fun e => e.2.2⟩
    · rename_i hc
      simp only [List.not_mem_nil, false_iff]
      exact fun e => hc ⟨e.1, e.2.1⟩
  have e6 : f ∈ archFlags m s root platform ↔ (m.crossCompile = false ∧ (f = c!"-arch" ∨
      (archOf m s root platform = c!"i386" ∨ archOf m s root platform = c!"x86_64") ∧
      ((xTest s c!"GCC_ENABLE_SSE3_EXTENSIONS" c!"YES" c!"NO" = true ∧ f = c!"-msse3") ∨
      (xTest s c!"GCC_ENABLE_SUPPLEMENTAL_SSE3_INSTRUCTIONS" c!"YES" c!"NO" = true ∧ f = c!"-mssse3") ∨
      (xTest s c!"GCC_ENABLE_SSE41_EXTENSIONS" c!"YES" c!"NO" = true ∧ f = c!"-msse4.1") ∨
      (xTest s c!"GCC_ENABLE_SSE42_EXTENSIONS" c!"YES" c!"NO" = true ∧ f = c!"-msse4.2")))) := by
    unfold archFlags
    by_cases hc : m.crossCompile = true
    · simp [hc]
    · simp only [hc, Bool.false_eq_true, if_false, List.mem_append, List.mem_cons, List.not_mem_nil, or_false, e2]
      by_cases ha : archOf m s root platform = c!"i386" ∨ archOf m s root platform = c!"x86_64"
      · simp only [ha, if_true, List.mem_append, mem_flagIf, true_and, or_assoc]
      · simp [ha]
  simp only [List.mem_append, mem_flagIf, e3, e4, e5, e6, n1, debug_mem h2, or_assoc, or_false, false_or]

/-! ### Statements -/

/-- Every switch for all languages does what it says: the flag is given when and only when the setting
has its value. -/
theorem C93_switches {repr m s dirs platform l} (h : xcodeCflags repr m s dirs platform = some l)
    (w : XcodeSwitch) (hw : w ∈ allSwitches) (hn : NotWritten m s platform w.flag) : w.flag ∈ l ↔ w.On s := by
  have hd : startsWith w.flag c!"-" = true ∧ startsWith w.flag c!"-F" = false ∧
      startsWith w.flag c!"-mm" = false ∧ startsWith w.flag c!"-mi" = false ∧ startsWith w.flag c!"-O" = false := by
    clear hn; revert w; decide
  obtain ⟨root, debug, min, h1, h2, h3, hm⟩ := cflags_mem h w.flag hd.1 hd.2.1 hn
  have hmin : w.flag ∉ min := by
    intro hf
    rcases min_mem h3 hf with ⟨v, _, e⟩ | ⟨v, _, e | e⟩ <;> rw [e] at hd <;> simp [startsWith] at hd
  have hO : w.flag ∉ xAppendf repr s c!"GCC_OPTIMIZATION_LEVEL" c!"-O" c!"s" := by
    intro hf
    unfold xAppendf at hf
    split at hf
    · simp only [List.mem_singleton] at hf; rw [hf] at hd; simp [startsWith] at hd
    · split at hf
      · simp at hf
      · simp only [List.mem_singleton] at hf; rw [hf] at hd; simp [startsWith] at hd
  rw [hm]
  simp only [hmin, hO, false_or]
  clear hm hmin hO hd hn
  simp only [allSwitches, List.mem_cons, List.not_mem_nil, or_false] at hw
  rcases hw with rfl | rfl | rfl | rfl | rfl | rfl | rfl | rfl | rfl | rfl | rfl | rfl <;>
    simp [xTest_on, XcodeSwitch.On]

/-- The switches for Intel processors count when the architecture is one of Intel's, and when not
compiling for another machine. -/
theorem C93_intel {repr m s dirs platform l} (h : xcodeCflags repr m s dirs platform = some l)
    (w : XcodeSwitch) (hw : w ∈ intelSwitches) (hn : NotWritten m s platform w.flag) :
    w.flag ∈ l ↔ w.On s ∧ m.crossCompile = false ∧
      ∃ root, sdkRoot s = some root ∧ archOf m s root platform ∈ [c!"i386", c!"x86_64"] := by
  have hd : startsWith w.flag c!"-" = true ∧ startsWith w.flag c!"-F" = false ∧
      startsWith w.flag c!"-mm" = false ∧ startsWith w.flag c!"-mi" = false ∧ startsWith w.flag c!"-O" = false := by
    clear hn; revert w; decide
  obtain ⟨root, debug, min, h1, h2, h3, hm⟩ := cflags_mem h w.flag hd.1 hd.2.1 hn
  have hmin : w.flag ∉ min := by
    intro hf
    rcases min_mem h3 hf with ⟨v, _, e⟩ | ⟨v, _, e | e⟩ <;> rw [e] at hd <;> simp [startsWith] at hd
  have hO : w.flag ∉ xAppendf repr s c!"GCC_OPTIMIZATION_LEVEL" c!"-O" c!"s" := by
    intro hf
    unfold xAppendf at hf
    split at hf
    · simp only [List.mem_singleton] at hf; rw [hf] at hd; simp [startsWith] at hd
    · split at hf
      · simp at hf
      · simp only [List.mem_singleton] at hf; rw [hf] at hd; simp [startsWith] at hd
  rw [hm]
  simp only [hmin, hO, false_or, h1, Option.some.injEq, exists_eq_left', List.mem_cons, List.not_mem_nil, or_false]
  clear hm hmin hO hd hn
  generalize archOf m s root platform = arch
  simp only [intelSwitches, List.mem_cons, List.not_mem_nil, or_false] at hw
  rcases hw with rfl | rfl | rfl | rfl <;> simp [xTest_on, XcodeSwitch.On] <;> tauto

/-- A setting that is part of a flag: the flag is given with the value of the setting, and with no
other. -/
theorem C93_valued {repr m s dirs platform l} (h : xcodeCflags repr m s dirs platform = some l)
    (w : Valued) (hw : w ∈ allValued) (rest : Str) (hn : NotWritten m s platform (w.front ++ rest))
    (hl : ∀ v, aget s w.setting ≠ some (.list v)) : w.front ++ rest ∈ l ↔ w.Is s rest := by
  have hd : startsWith (w.front ++ rest) c!"-" = true ∧ startsWith (w.front ++ rest) c!"-F" = false := by
    simp only [allValued, List.mem_cons, List.not_mem_nil, or_false] at hw
    rcases hw with rfl | rfl <;> exact ⟨rfl, rfl⟩
  obtain ⟨root, debug, min, h1, h2, h3, hm⟩ := cflags_mem h _ hd.1 hd.2 hn
  rw [hm]
  clear hm hd hn
  simp only [allValued, List.mem_cons, List.not_mem_nil, or_false] at hw
  rcases hw with rfl | rfl
  · have hmin : c!"-O" ++ rest ∉ min := by
      intro hf
      rcases min_mem h3 hf with ⟨v, _, e⟩ | ⟨v, _, e | e⟩ <;> simp at e
    simp only [hmin, false_or]
    simp only [List.cons_append, List.nil_append, List.cons.injEq, Char.reduceEq, false_and, and_false, or_false,
      false_or, true_and]
    unfold xAppendf Valued.Is
    simp only
    cases ha : aget s c!"GCC_OPTIMIZATION_LEVEL" with
    | none => simp [eq_comm]
    | some v =>
      cases v with
      | text t => simp [xText, eq_comm]
      | list v => exact absurd ha (hl v)
  · have hO : c!"-mmacosx-version-min=" ++ rest ∉ xAppendf repr s c!"GCC_OPTIMIZATION_LEVEL" c!"-O" c!"s" := by
      unfold xAppendf
      split <;> simp
    simp only [hO, false_or]
    simp only [List.cons_append, List.nil_append, List.cons.injEq, Char.reduceEq, false_and, and_false, or_false,
      false_or, true_and]
    unfold Valued.Is
    simp only
    constructor
    · intro hf
      rcases min_mem h3 hf with ⟨v, hv, e⟩ | ⟨v, hv, e | e⟩
      · left
        cases v with
        | text t => simp [xText] at e; rw [e]; exact hv
        | list v => exact absurd hv (hl v)
      · simp at e
      · simp at e
    · rintro (hv | ⟨_, hv⟩)
      · exact min_mem' h3 hv
      · cases hv

/-- The flags the user wrote for warnings come after all others but the directories of frameworks,
in their order; none of the other flags depends on them. -/
theorem C93_warnings (repr m s dirs platform) (v : XVal) :
    xcodeCflags repr m (aset s c!"WARNING_CFLAGS" v) dirs platform =
      (xcodeCflags repr m (aset s c!"WARNING_CFLAGS" (.list [])) [] platform).map fun l =>
        l ++ xItems (some v) ++ dirs.map fun d =>
          c!"-F" ++ replaceStr c!"$(SDKROOT)" (((sdkRoot s).bind (sdkPathOf m)).getD []) d := by
  have hne : ∀ k v, k ≠ c!"WARNING_CFLAGS" → aget (aset s c!"WARNING_CFLAGS" v) k = aget s k := by
    intro k v hk; rw [aget_aset, if_neg (by simpa [eq_comm] using hk)]
  have hk : ∀ v, (c!"SDKROOT" ∈ akeys (aset s c!"WARNING_CFLAGS" v)) ↔ c!"SDKROOT" ∈ akeys s := by
    intro v; rw [mem_akeys_aset]; simp
  have hw : ∀ v, aget (aset s c!"WARNING_CFLAGS" v) c!"WARNING_CFLAGS" = some v := by
    intro v; rw [aget_aset, if_pos rfl]
  have hr : ∀ v, sdkRoot (aset s c!"WARNING_CFLAGS" v) = sdkRoot s := by
    intro v; unfold sdkRoot; rw [hne _ _ (by decide)]
  have hdbg : ∀ v, debugFlag (aset s c!"WARNING_CFLAGS" v) = debugFlag s := by
    intro v; unfold debugFlag xTest; rw [hne _ _ (by decide), hne _ _ (by decide)]
  have hmin : ∀ v root, platformMin repr m (aset s c!"WARNING_CFLAGS" v) root = platformMin repr m s root := by
    intro v root; unfold platformMin xAppendf; rw [hne _ _ (by decide), hne _ _ (by decide)]
  have ht : ∀ v k x d, k ≠ c!"WARNING_CFLAGS" → xTest (aset s c!"WARNING_CFLAGS" v) k x d = xTest s k x d := by
    intro v k x d hk; unfold xTest; rw [hne _ _ hk]
  have ha : ∀ v root, archFlags m (aset s c!"WARNING_CFLAGS" v) root platform = archFlags m s root platform := by
    intro v root
    unfold archFlags archOf activeArchs
    rw [hne _ _ (by decide), hne _ _ (by decide), ht _ _ _ _ (by decide), ht _ _ _ _ (by decide),
      ht _ _ _ _ (by decide), ht _ _ _ _ (by decide)]
  have hO : ∀ v, xAppendf repr (aset s c!"WARNING_CFLAGS" v) c!"GCC_OPTIMIZATION_LEVEL" c!"-O" c!"s" =
      xAppendf repr s c!"GCC_OPTIMIZATION_LEVEL" c!"-O" c!"s" := by
    intro v; unfold xAppendf; rw [hne _ _ (by decide)]
  unfold xcodeCflags
  simp only [hr, hdbg, hmin, hk, ha, hw, hO, Option.bind_eq_bind]
  rw [ht _ _ _ _ (by decide), ht _ _ _ _ (by decide), ht _ _ _ _ (by decide), ht _ _ _ _ (by decide),
      ht _ _ _ _ (by decide), ht _ _ _ _ (by decide), ht _ _ _ _ (by decide), ht _ _ _ _ (by decide),
      ht _ _ _ _ (by decide), ht _ _ _ _ (by decide), ht _ _ _ _ (by decide)]
  rw [ht _ _ _ _ (by decide), ht _ _ _ _ (by decide), ht _ _ _ _ (by decide), ht _ _ _ _ (by decide),
      ht _ _ _ _ (by decide), ht _ _ _ _ (by decide), ht _ _ _ _ (by decide), ht _ _ _ _ (by decide),
      ht _ _ _ _ (by decide), ht _ _ _ _ (by decide), ht _ _ _ _ (by decide)]
  cases h1 : sdkRoot s with
  | none => simp
  | some root =>
    cases h2 : debugFlag s with
    | none => simp
    | some d =>
      cases h3 : platformMin repr m s root with
      | none => simp [h3]
      | some mn => simp [h3, xItems, List.append_assoc]

/-- Nothing else counts: two sets of settings that agree on the settings known give the same flags. -/
theorem C93_only (repr m dirs platform) (s s' : XSettings) (h : ∀ k ∈ allKnown, aget s k = aget s' k) :
    xcodeCflags repr m s dirs platform = xcodeCflags repr m s' dirs platform := by
  have e0 : aget s c!"CLANG_WARN_CONSTANT_CONVERSION" = aget s' c!"CLANG_WARN_CONSTANT_CONVERSION" := h _ (by decide)
  have e1 : aget s c!"GCC_CHAR_IS_UNSIGNED_CHAR" = aget s' c!"GCC_CHAR_IS_UNSIGNED_CHAR" := h _ (by decide)
  have e2 : aget s c!"GCC_CW_ASM_SYNTAX" = aget s' c!"GCC_CW_ASM_SYNTAX" := h _ (by decide)
  have e3 : aget s c!"GCC_DYNAMIC_NO_PIC" = aget s' c!"GCC_DYNAMIC_NO_PIC" := h _ (by decide)
  have e4 : aget s c!"GCC_ENABLE_PASCAL_STRINGS" = aget s' c!"GCC_ENABLE_PASCAL_STRINGS" := h _ (by decide)
  have e5 : aget s c!"GCC_GENERATE_DEBUGGING_SYMBOLS" = aget s' c!"GCC_GENERATE_DEBUGGING_SYMBOLS" := h _ (by decide)
  have e6 : aget s c!"GCC_STRICT_ALIASING" = aget s' c!"GCC_STRICT_ALIASING" := h _ (by decide)
  have e7 : aget s c!"GCC_SYMBOLS_PRIVATE_EXTERN" = aget s' c!"GCC_SYMBOLS_PRIVATE_EXTERN" := h _ (by decide)
  have e8 : aget s c!"GCC_TREAT_WARNINGS_AS_ERRORS" = aget s' c!"GCC_TREAT_WARNINGS_AS_ERRORS" := h _ (by decide)
  have e9 : aget s c!"GCC_WARN_ABOUT_MISSING_NEWLINE" = aget s' c!"GCC_WARN_ABOUT_MISSING_NEWLINE" := h _ (by decide)
  have e10 : aget s c!"LLVM_LTO" = aget s' c!"LLVM_LTO" := h _ (by decide)
  have e11 : aget s c!"GCC_ENABLE_SSE3_EXTENSIONS" = aget s' c!"GCC_ENABLE_SSE3_EXTENSIONS" := h _ (by decide)
  have e12 : aget s c!"GCC_ENABLE_SUPPLEMENTAL_SSE3_INSTRUCTIONS" = aget s' c!"GCC_ENABLE_SUPPLEMENTAL_SSE3_INSTRUCTIONS" := h _ (by decide)
  have e13 : aget s c!"GCC_ENABLE_SSE41_EXTENSIONS" = aget s' c!"GCC_ENABLE_SSE41_EXTENSIONS" := h _ (by decide)
  have e14 : aget s c!"GCC_ENABLE_SSE42_EXTENSIONS" = aget s' c!"GCC_ENABLE_SSE42_EXTENSIONS" := h _ (by decide)
  have e15 : aget s c!"GCC_OPTIMIZATION_LEVEL" = aget s' c!"GCC_OPTIMIZATION_LEVEL" := h _ (by decide)
  have e16 : aget s c!"MACOSX_DEPLOYMENT_TARGET" = aget s' c!"MACOSX_DEPLOYMENT_TARGET" := h _ (by decide)
  have e17 : aget s c!"SDKROOT" = aget s' c!"SDKROOT" := h _ (by decide)
  have e18 : aget s c!"IPHONEOS_DEPLOYMENT_TARGET" = aget s' c!"IPHONEOS_DEPLOYMENT_TARGET" := h _ (by decide)
  have e19 : aget s c!"DEBUG_INFORMATION_FORMAT" = aget s' c!"DEBUG_INFORMATION_FORMAT" := h _ (by decide)
  have e20 : aget s c!"ARCHS" = aget s' c!"ARCHS" := h _ (by decide)
  have e21 : aget s c!"VALID_ARCHS" = aget s' c!"VALID_ARCHS" := h _ (by decide)
  have e22 : aget s c!"WARNING_CFLAGS" = aget s' c!"WARNING_CFLAGS" := h _ (by decide)
  have ek : c!"SDKROOT" ∈ akeys s ↔ c!"SDKROOT" ∈ akeys s' := by
    rw [← aget_isSome, ← aget_isSome, e17]
  have hr : sdkRoot s = sdkRoot s' := by unfold sdkRoot; rw [e17]
  have hdbg : debugFlag s = debugFlag s' := by
    unfold debugFlag xTest; rw [e5, e19]
  have hmin : ∀ root, platformMin repr m s root = platformMin repr m s' root := by
    intro root; unfold platformMin xAppendf; rw [e16, e18]
  have hO : xAppendf repr s c!"GCC_OPTIMIZATION_LEVEL" c!"-O" c!"s" =
      xAppendf repr s' c!"GCC_OPTIMIZATION_LEVEL" c!"-O" c!"s" := by
    unfold xAppendf; rw [e15]
  have ht : ∀ k x d, aget s k = aget s' k → xTest s k x d = xTest s' k x d := by
    intro k x d hk; unfold xTest; rw [hk]
  have ha : ∀ root, archFlags m s root platform = archFlags m s' root platform := by
    intro root
    unfold archFlags archOf activeArchs
    rw [e20, e21, ht _ _ _ e11, ht _ _ _ e12, ht _ _ _ e13,
      ht _ _ _ e14]
  unfold xcodeCflags
  rw [hr, hdbg]
  simp only [hmin, hO, ha, ek]
  rw [ht _ _ _ e0, ht _ _ _ e1, ht _ _ _ e2, ht _ _ _ e3, ht _ _ _ e4,
    ht _ _ _ e6, ht _ _ _ e6, ht _ _ _ e7, ht _ _ _ e8, ht _ _ _ e9, ht _ _ _ e10, e22]

theorem C93_only_cxx (repr) (s s' : XSettings) (h : ∀ k ∈ cxxKnown, aget s k = aget s' k) :
    xcodeCflagsCc repr s = xcodeCflagsCc repr s' := by
  have e0 : aget s c!"GCC_ENABLE_CPP_RTTI" = aget s' c!"GCC_ENABLE_CPP_RTTI" := h _ (by decide)
  have e1 : aget s c!"GCC_ENABLE_CPP_EXCEPTIONS" = aget s' c!"GCC_ENABLE_CPP_EXCEPTIONS" := h _ (by decide)
  have e2 : aget s c!"GCC_INLINES_ARE_PRIVATE_EXTERN" = aget s' c!"GCC_INLINES_ARE_PRIVATE_EXTERN" := h _ (by decide)
  have e3 : aget s c!"GCC_THREADSAFE_STATICS" = aget s' c!"GCC_THREADSAFE_STATICS" := h _ (by decide)
  have e4 : aget s c!"GCC_WARN_ABOUT_INVALID_OFFSETOF_MACRO" = aget s' c!"GCC_WARN_ABOUT_INVALID_OFFSETOF_MACRO" := h _ (by decide)
  have e5 : aget s c!"CLANG_CXX_LANGUAGE_STANDARD" = aget s' c!"CLANG_CXX_LANGUAGE_STANDARD" := h _ (by decide)
  have e6 : aget s c!"CLANG_CXX_LIBRARY" = aget s' c!"CLANG_CXX_LIBRARY" := h _ (by decide)
  have e7 : aget s c!"OTHER_CPLUSPLUSFLAGS" = aget s' c!"OTHER_CPLUSPLUSFLAGS" := h _ (by decide)
  have e8 : aget s c!"OTHER_CFLAGS" = aget s' c!"OTHER_CFLAGS" := h _ (by decide)
  simp only [xcodeCflagsCc, cxxStandard, otherCxxFlags, xAppendf, xTest, e0, e1, e2, e3, e4, e5, e6, e7, e8]

/-- When there are no flags: `SDKROOT` is not a text, debugging information is asked for in a format that is
not known, or a version of iOS is asked for and there is no SDK. -/
theorem C93_refused (repr m s dirs platform) :
    xcodeCflags repr m s dirs platform = none ↔
      (∃ l, aget s c!"SDKROOT" = some (.list l)) ∨
      ((aget s c!"GCC_GENERATE_DEBUGGING_SYMBOLS" = none ∨
          aget s c!"GCC_GENERATE_DEBUGGING_SYMBOLS" = some (.text c!"YES")) ∧
        (∃ v, aget s c!"DEBUG_INFORMATION_FORMAT" = some v ∧ v ≠ .text c!"dwarf" ∧ v ≠ .text c!"dwarf-with-dsym")) ∨
      ((aget s c!"IPHONEOS_DEPLOYMENT_TARGET").isSome ∧ ∃ name,
        (aget s c!"SDKROOT" = some (.text name) ∨ (aget s c!"SDKROOT" = none ∧ name = [])) ∧
        startsWith name c!"/" = false ∧ m.sdkPath name = none) := by
  have h1 : ∀ root, sdkRoot s = some root ↔
      (aget s c!"SDKROOT" = some (.text root) ∨ (aget s c!"SDKROOT" = none ∧ root = [])) := by
    intro root
    unfold sdkRoot
    cases aget s c!"SDKROOT" with
    | none => simp [eq_comm]
    | some v => cases v <;> simp
  have h2 : debugFlag s = none ↔ ((aget s c!"GCC_GENERATE_DEBUGGING_SYMBOLS" = none ∨
          aget s c!"GCC_GENERATE_DEBUGGING_SYMBOLS" = some (.text c!"YES")) ∧
        (∃ v, aget s c!"DEBUG_INFORMATION_FORMAT" = some v ∧ v ≠ .text c!"dwarf" ∧ v ≠ .text c!"dwarf-with-dsym")) := by
    unfold debugFlag
    simp only [xTest_on]
    rw [show (aget s c!"GCC_GENERATE_DEBUGGING_SYMBOLS" = none ∨
          aget s c!"GCC_GENERATE_DEBUGGING_SYMBOLS" = some (.text c!"YES")) =
        (aget s c!"GCC_GENERATE_DEBUGGING_SYMBOLS" = some (.text c!"YES") ∨
          aget s c!"GCC_GENERATE_DEBUGGING_SYMBOLS" = none) from propext Or.comm]
    simp only [and_true]
    split
    · rename_i hc
      simp only [hc, true_and]
      cases aget s c!"DEBUG_INFORMATION_FORMAT" with
      | none => simp
      | some v =>
        simp only [Option.getD_some]
        split
        · rename_i e; simp [e]
        · rename_i e
          split
          · rename_i e2; simp [e2]
          · split
            · rename_i e3; simp [e3]
            · rename_i e3; simp [e, e3]
    · rename_i hc; simp [hc]
  have h3 : ∀ root, platformMin repr m s root = none ↔
      (aget s c!"IPHONEOS_DEPLOYMENT_TARGET").isSome ∧ startsWith root c!"/" = false ∧ m.sdkPath root = none := by
    intro root
    unfold platformMin sdkPathOf
    cases aget s c!"IPHONEOS_DEPLOYMENT_TARGET" with
    | none => simp
    | some v =>
      by_cases hs : startsWith root c!"/" = true
      · simp only [hs, if_true]; split <;> simp
      · simp only [hs, Bool.false_eq_true, if_false]
        cases m.sdkPath root with
        | none => simp
        | some p => simp only; split <;> simp
  cases hr : sdkRoot s with
  | none =>
    have : ∃ l, aget s c!"SDKROOT" = some (.list l) := by
      unfold sdkRoot at hr
      cases ha : aget s c!"SDKROOT" with
      | none => simp [ha] at hr
      | some v => cases v with
        | text t => simp [ha] at hr
        | list l => exact ⟨l, rfl⟩
    simp [xcodeCflags, hr, this]
  | some root =>
    have hroot := (h1 root).1 hr
    have hno : ¬ ∃ l, aget s c!"SDKROOT" = some (.list l) := by
      rintro ⟨l, hl⟩; rw [hl] at hroot; simp at hroot
    have hex : (∃ name, (aget s c!"SDKROOT" = some (.text name) ∨ (aget s c!"SDKROOT" = none ∧ name = [])) ∧
        startsWith name c!"/" = false ∧ m.sdkPath name = none) ↔ startsWith root c!"/" = false ∧ m.sdkPath root = none := by
      simp only [← h1, hr, Option.some.injEq, exists_eq_left']
    rw [hex, ← h2, ← h3]
    simp only [hno, false_or]
    cases hd : debugFlag s with
    | none => simp [xcodeCflags, hr, hd]
    | some d =>
      cases hm : platformMin repr m s root with
      | none => simp [xcodeCflags, hr, hd, hm]
      | some mn => simp [xcodeCflags, hr, hd, hm]

/-- The SDK is named first, when `SDKROOT` is set and there is one; otherwise none is named. -/
theorem C93_sdk {repr m s dirs platform l} (h : xcodeCflags repr m s dirs platform = some l) :
    ∃ name, (aget s c!"SDKROOT" = some (.text name) ∨ (aget s c!"SDKROOT" = none ∧ name = [])) ∧
      let sdk := if startsWith name c!"/" then some name else m.sdkPath name
      (∀ p, aget s c!"SDKROOT" ≠ none → sdk = some p → p ≠ [] → [c!"-isysroot", p] <+: l) ∧
      (aget s c!"SDKROOT" = none ∨ sdk = none ∨ sdk = some [] →
        NotWritten m s platform c!"-isysroot" → c!"-isysroot" ∉ l) := by
  have hh := h
  obtain ⟨root, debug, min, h1, h2, h3, rfl⟩ := cflags_some h
  have hroot : (aget s c!"SDKROOT" = some (.text root) ∨ (aget s c!"SDKROOT" = none ∧ root = [])) := by
    unfold sdkRoot at h1
    cases ha : aget s c!"SDKROOT" with
    | none => simp [ha] at h1; simp [h1]
    | some v => cases v <;> simp_all
  refine ⟨root, hroot, ?_, ?_⟩
  · intro p hs hp hne
    have hk : c!"SDKROOT" ∈ akeys s := by
      rw [← aget_isSome]; exact Option.isSome_iff_ne_none.2 hs
    have hp' : (sdkPathOf m root).getD [] = p := by
      unfold sdkPathOf; rw [hp]; rfl
    rw [hp', if_pos ⟨hk, hne⟩]
    simp only [List.append_assoc, List.cons_append, List.nil_append]
    exact ⟨_, rfl⟩
  · intro hno hn
    obtain ⟨root', debug', min', h1', h2', h3', hm⟩ := cflags_mem hh c!"-isysroot" (by decide) (by decide) hn
    rw [h1] at h1'; cases h1'
    rw [hm]
    clear hm hh h hn
    have hmin : c!"-isysroot" ∉ min' := by
      intro hf
      rcases min_mem h3' hf with ⟨v, _, e⟩ | ⟨v, _, e | e⟩ <;> simp at e
    have hO : c!"-isysroot" ∉ xAppendf repr s c!"GCC_OPTIMIZATION_LEVEL" c!"-O" c!"s" := by
      unfold xAppendf
      split <;> simp
    have hk : ¬ (c!"SDKROOT" ∈ akeys s ∧ (sdkPathOf m root).getD [] ≠ []) := by
      rintro ⟨hk, hne⟩
      rw [← aget_isSome] at hk
      rcases hno with hno | hno | hno
      · rw [hno] at hk; cases hk
      · exact hne (by unfold sdkPathOf; rw [hno]; rfl)
      · exact hne (by unfold sdkPathOf; rw [hno]; rfl)
    rintro (hc | hc)
    · exact hk ⟨hc.1, hc.2.1⟩
    · simp [hmin, hO] at hc

/-- Unless compiling for another machine, the architecture is named: it is the platform of the
configuration, or else the only active architecture. -/
theorem C93_arch {repr m s dirs platform l} (h : xcodeCflags repr m s dirs platform = some l)
    (hm : m.crossCompile = false) (arch : Str)
    (ha : platform = some arch ∨ (platform = none ∧ ∃ root, sdkRoot s = some root ∧ activeArchs m s root = [arch])) :
    [c!"-arch", arch] <:+: l := by
  obtain ⟨root, debug, min, h1, h2, h3, rfl⟩ := cflags_some h
  have hA : archOf m s root platform = arch := by
    rcases ha with rfl | ⟨rfl, root', hr, he⟩
    · rfl
    · rw [h1] at hr; cases hr
      unfold archOf
      simp [he]
  have hi : [c!"-arch", arch] <:+: archFlags m s root platform := by
    unfold archFlags
    simp only [hm, Bool.false_eq_true, if_false, hA]
    exact ⟨[], _, rfl⟩
  exact hi.trans ⟨_, _, (List.append_assoc _ _ _).symm⟩

/-- The code does not do what Xcode does for several architectures: with two or more of them (or none),
everything is compiled for `i386`, which is none of those asked for. -/
theorem C93_fat {repr m s dirs l} (h : xcodeCflags repr m s dirs none = some l)
    (hm : m.crossCompile = false) (hn : ∀ root, sdkRoot s = some root → (activeArchs m s root).length ≠ 1) :
    [c!"-arch", c!"i386"] <:+: l := by
  obtain ⟨root, debug, min, h1, h2, h3, rfl⟩ := cflags_some h
  have hA : archOf m s root none = c!"i386" := by
    have := hn root h1
    unfold archOf
    simp only [Option.elim_none]
    split
    · rename_i a ha; simp [ha] at this
    · rfl
  have hi : [c!"-arch", c!"i386"] <:+: archFlags m s root none := by
    unfold archFlags
    simp only [hm, Bool.false_eq_true, if_false, hA]
    exact ⟨[], _, rfl⟩
  exact hi.trans ⟨_, _, (List.append_assoc _ _ _).symm⟩

/-- The architectures, with Xcode 5.1 and later: those the entries of `ARCHS` stand for (of the standard
ones when there are no entries), without those that are not in `VALID_ARCHS` when it has entries; each is named once. -/
theorem C93_archs (m : XMachine) (s : XSettings) (sdk : Str) (hx : strLe c!"0510" m.xcodeVersion = true)
    (given valid : List Str)
    (hg : aget s c!"ARCHS" = some (.list given) ∨ (aget s c!"ARCHS" = none ∧ given = []))
    (hv : aget s c!"VALID_ARCHS" = some (.list valid) ∨ (aget s c!"VALID_ARCHS" = none ∧ valid = [])) :
    (activeArchs m s sdk).Nodup ∧
    ∀ a, a ∈ activeArchs m s sdk ↔
      (if given = [] then a ∈ standardArchs sdk else ∃ e ∈ given, ArchStandsFor sdk e a) ∧ (valid ≠ [] → a ∈ valid) := by
  have hx5 : strLe c!"0500" m.xcodeVersion = true := strLe_trans _ _ _ (by decide) hx
  have hd : archsDefault m.xcodeVersion = archsDefault c!"0510" := by
    unfold archsDefault
    rw [hx, hx5]; rfl
  have hmap : ∀ e l, aget (archMapping m.xcodeVersion sdk) e = some l ↔
      (e = c!"$(ARCHS_STANDARD)" ∨ e = c!"$(ARCHS_STANDARD_INCLUDING_64_BIT)") ∧ l = standardArchs sdk := by
    intro e l
    have hs : ∀ t : Str, hasSub t (sdk.map Char.toLower) = true ↔ t <:+: sdk.map Char.toLower := by
      intro t; rw [hasSub_iff]
      constructor
      · rintro ⟨a, b, h⟩; exact ⟨a, b, h.symm⟩
      · rintro ⟨a, b, h⟩; exact ⟨a, b, h.symm⟩
    have hget : ∀ x : List Str, aget [(c!"$(ARCHS_STANDARD)", x), (c!"$(ARCHS_STANDARD_INCLUDING_64_BIT)", x)] e = some l ↔
        (e = c!"$(ARCHS_STANDARD)" ∨ e = c!"$(ARCHS_STANDARD_INCLUDING_64_BIT)") ∧ l = x := by
      intro x
      by_cases e1 : e = c!"$(ARCHS_STANDARD)"
      · subst e1
        show some x = some l ↔ _
        exact ⟨fun h => ⟨Or.inl rfl, (Option.some.inj h).symm⟩, fun h => by rw [h.2]⟩
      · by_cases e2 : e = c!"$(ARCHS_STANDARD_INCLUDING_64_BIT)"
        · subst e2
          show some x = some l ↔ _
          exact ⟨fun h => ⟨Or.inr rfl, (Option.some.inj h).symm⟩, fun h => by rw [h.2]⟩
        · have hnone : aget [(c!"$(ARCHS_STANDARD)", x), (c!"$(ARCHS_STANDARD_INCLUDING_64_BIT)", x)] e = none := by
            unfold aget; rw [if_neg (Ne.symm e1)]
            unfold aget; rw [if_neg (Ne.symm e2)]; rfl
          rw [hnone]
          exact ⟨(nomatch ·), fun h => (h.1.elim e1 e2).elim⟩
    unfold archMapping standardArchs
    rw [hd]
    simp only [hs]
    by_cases h1 : c!"iphoneos" <:+: sdk.map Char.toLower
    · rw [if_pos h1, if_pos h1]; exact hget _
    · rw [if_neg h1, if_neg h1]
      by_cases h2 : c!"iphonesimulator" <:+: sdk.map Char.toLower
      · rw [if_pos h2, if_pos h2]; exact hget _
      · rw [if_neg h2, if_neg h2]; exact hget _
  have hstand : ∀ e a, (if archVariable e = true then ∃ l, aget (archMapping m.xcodeVersion sdk) e = some l ∧ a ∈ l
      else a = e) ↔ ArchStandsFor sdk e a := by
    intro e a
    unfold ArchStandsFor
    by_cases hee : e = c!"$(ARCHS_STANDARD)" ∨ e = c!"$(ARCHS_STANDARD_INCLUDING_64_BIT)"
    · have hav : archVariable e = true := by rcases hee with rfl | rfl <;> decide
      rw [if_pos hav, if_pos hee]
      constructor
      · rintro ⟨l, hl, ha⟩; rw [← ((hmap e l).1 hl).2]; exact ha
      · intro ha; exact ⟨_, (hmap e _).2 ⟨hee, rfl⟩, ha⟩
    · rw [if_neg hee]
      by_cases hav : archVariable e = true
      · rw [if_pos hav]
        constructor
        · rintro ⟨l, hl, ha⟩; exact absurd ((hmap e l).1 hl).1 hee
        · rintro ⟨ha, _⟩; rw [hav] at ha; cases ha
      · rw [if_neg hav]
        constructor
        · exact fun h => ⟨by simpa using hav, h⟩
        · exact fun h => h.2
  -- the entries
  obtain ⟨entries, hent, hentmem⟩ : ∃ entries,
      (if xTruthy (aget s c!"ARCHS") then xItems (aget s c!"ARCHS") else [(archsDefault m.xcodeVersion).1]) = entries ∧
      ∀ a, (∃ e ∈ entries, ArchStandsFor sdk e a) ↔
        (if given = [] then a ∈ standardArchs sdk else ∃ e ∈ given, ArchStandsFor sdk e a) := by
    refine ⟨_, rfl, ?_⟩
    intro a
    by_cases hnil : given = []
    · have : xTruthy (aget s c!"ARCHS") = false := by
        rcases hg with hg | hg
        · rw [hg, hnil]; rfl
        · rw [hg.1]; rfl
      rw [this, hd, if_pos hnil]
      show (∃ e ∈ [c!"$(ARCHS_STANDARD)"], _) ↔ _
      simp [ArchStandsFor]
    · have hg' : aget s c!"ARCHS" = some (.list given) := by
        rcases hg with hg | hg
        · exact hg
        · exact absurd hg.2 hnil
      rw [hg', if_neg hnil]
      simp [xTruthy, xItems, hnil]
  have hexp : ∀ a, a ∈ expandArchs (archMapping m.xcodeVersion sdk) entries ↔
      (if given = [] then a ∈ standardArchs sdk else ∃ e ∈ given, ArchStandsFor sdk e a) := by
    intro a
    rw [mem_expandArchs, ← hentmem]
    simp only [hstand]
  have hact : activeArchs m s sdk = if valid = [] then expandArchs (archMapping m.xcodeVersion sdk) entries
      else (expandArchs (archMapping m.xcodeVersion sdk) entries).filter fun a => decide (a ∈ valid) := by
    unfold activeArchs
    simp only [hent]
    rcases hv with hv | ⟨hv, rfl⟩
    · rw [hv]
      by_cases hnil : valid = []
      · simp [hnil, xTruthy]
      · simp only [xTruthy, hnil, ne_eq, not_false_eq_true, decide_true, if_true, if_false]; rfl
    · rw [hv]; rfl
  rw [hact]
  by_cases hnil : valid = []
  · rw [if_pos hnil]
    exact ⟨nodup_expandArchs _ _, fun a => by rw [hexp]; simp [hnil]⟩
  · rw [if_neg hnil]
    refine ⟨(nodup_expandArchs _ _).filter _, fun a => ?_⟩
    rw [List.mem_filter, hexp]
    simp [hnil]

/-! ### C, C++ and Objective-C -/

/-- For C: the language, when it is set, and then the user's flags in their order. -/
theorem C93_c (repr) (s : XSettings) (other : List Str)
    (ho : aget s c!"OTHER_CFLAGS" = some (.list other) ∨ (aget s c!"OTHER_CFLAGS" = none ∧ other = [])) :
    (aget s c!"GCC_C_LANGUAGE_STANDARD" = none → xcodeCflagsC repr s = other) ∧
    (∀ t, aget s c!"GCC_C_LANGUAGE_STANDARD" = some (.text t) →
      xcodeCflagsC repr s = (if t = c!"ansi" then c!"-ansi" else c!"-std=" ++ t) :: other) := by
  have hi : xItems (aget s c!"OTHER_CFLAGS") = other := by
    rcases ho with ho | ⟨ho, rfl⟩ <;> rw [ho] <;> rfl
  unfold xcodeCflagsC xTest xAppendf
  rw [hi]
  constructor
  · intro h; simp [h]
  · intro t h
    by_cases ht : t = c!"ansi"
    · simp [h, ht]
    · simp [h, ht, xText]

theorem otherCxx_replaced (s : XSettings) :
    Replaced (xItems (aget s c!"OTHER_CFLAGS"))
      (match aget s c!"OTHER_CPLUSPLUSFLAGS" with
        | none => [c!"$(inherited)"]
        | some v => xItems (some v)) (otherCxxFlags s) := by
  unfold otherCxxFlags
  have key : ∀ l : List Str, Replaced (xItems (aget s c!"OTHER_CFLAGS")) l (l.flatMap fun flag =>
      let flag := if flag ∈ [c!"$inherited", c!"$(inherited)", c!"${inherited}"] then c!"$OTHER_CFLAGS" else flag
      if flag ∈ [c!"$OTHER_CFLAGS", c!"$(OTHER_CFLAGS)", c!"${OTHER_CFLAGS}"] then xItems (aget s c!"OTHER_CFLAGS")
      else [flag]) := by
    intro l
    induction l with
    | nil => exact .nil
    | cons f l ih =>
      rw [List.flatMap_cons]
      by_cases h1 : f ∈ [c!"$inherited", c!"$(inherited)", c!"${inherited}"]
      · simp only [h1, if_true]
        rw [if_pos (by decide)]
        refine .reference ?_ ih
        have : ∀ f ∈ [c!"$inherited", c!"$(inherited)", c!"${inherited}"], f ∈ cflagsReferences := by decide
        exact this f h1
      · simp only [h1, if_false]
        by_cases h2 : f ∈ [c!"$OTHER_CFLAGS", c!"$(OTHER_CFLAGS)", c!"${OTHER_CFLAGS}"]
        · rw [if_pos h2]
          refine .reference ?_ ih
          have : ∀ f ∈ [c!"$OTHER_CFLAGS", c!"$(OTHER_CFLAGS)", c!"${OTHER_CFLAGS}"], f ∈ cflagsReferences := by decide
          exact this f h2
        · rw [if_neg h2]
          refine .plain ?_ ih
          intro hc
          have : ∀ f ∈ cflagsReferences, f ∈ [c!"$inherited", c!"$(inherited)", c!"${inherited}"] ∨
              f ∈ [c!"$OTHER_CFLAGS", c!"$(OTHER_CFLAGS)", c!"${OTHER_CFLAGS}"] := by decide
          rcases this f hc with h | h
          · exact h1 h
          · exact h2 h
  exact key _

/-- For C++: the user's flags come last, in their order, with the flags for C in place of every reference
to them; with no flags of its own, C++ has those for C.  No other flag depends on them. -/
theorem C93_cxx_other (repr) (s : XSettings) (own : List Str)
    (ho : aget s c!"OTHER_CPLUSPLUSFLAGS" = some (.list own) ∨
      (aget s c!"OTHER_CPLUSPLUSFLAGS" = none ∧ own = [c!"$(inherited)"])) :
    ∃ out, Replaced (xItems (aget s c!"OTHER_CFLAGS")) own out ∧
      xcodeCflagsCc repr s = xcodeCflagsCc repr (aset s c!"OTHER_CPLUSPLUSFLAGS" (.list [])) ++ out := by
  refine ⟨otherCxxFlags s, ?_, ?_⟩
  · have := otherCxx_replaced s
    rcases ho with ho | ⟨ho, rfl⟩ <;> rw [ho] at this <;> exact this
  · have hne : ∀ k v, k ≠ c!"OTHER_CPLUSPLUSFLAGS" → aget (aset s c!"OTHER_CPLUSPLUSFLAGS" v) k = aget s k := by
      intro k v hk; rw [aget_aset, if_neg (by simpa [eq_comm] using hk)]
    have hw : ∀ v, aget (aset s c!"OTHER_CPLUSPLUSFLAGS" v) c!"OTHER_CPLUSPLUSFLAGS" = some v := by
      intro v; rw [aget_aset, if_pos rfl]
    have ht : ∀ v k x d, k ≠ c!"OTHER_CPLUSPLUSFLAGS" → xTest (aset s c!"OTHER_CPLUSPLUSFLAGS" v) k x d = xTest s k x d := by
      intro v k x d hk; unfold xTest; rw [hne _ _ hk]
    have hz : otherCxxFlags (aset s c!"OTHER_CPLUSPLUSFLAGS" (.list [])) = [] := by
      unfold otherCxxFlags; rw [hw]; rfl
    unfold xcodeCflagsCc
    rw [hz, List.append_nil, ht _ _ _ _ (by decide), ht _ _ _ _ (by decide), ht _ _ _ _ (by decide),
      ht _ _ _ _ (by decide), ht _ _ _ _ (by decide)]
    unfold xAppendf cxxStandard
    rw [hne _ _ (by decide), hne _ _ (by decide)]

theorem replaced_mem {cflags own out : List Str} (h : Replaced cflags own out) (f : Str) (hf : f ∈ out) :
    f ∈ cflags ∨ f ∈ own := by
  induction h with
  | nil => cases hf
  | reference _ _ ih =>
    rcases List.mem_append.1 hf with h | h
    · exact Or.inl h
    · rcases ih h with h | h
      · exact Or.inl h
      · exact Or.inr (List.mem_cons_of_mem _ h)
  | plain _ _ ih =>
    rcases List.mem_cons.1 hf with rfl | h
    · exact Or.inr (List.mem_cons_self ..)
    · rcases ih h with h | h
      · exact Or.inl h
      · exact Or.inr (List.mem_cons_of_mem _ h)

theorem notOther (s : XSettings) (f : Str) (h1 : f ∉ xItems (aget s c!"OTHER_CPLUSPLUSFLAGS"))
    (h2 : f ∉ xItems (aget s c!"OTHER_CFLAGS")) (h3 : startsWith f c!"-" = true) : f ∉ otherCxxFlags s := by
  intro hf
  have := replaced_mem (otherCxx_replaced s) f hf
  rcases this with h | h
  · exact h2 h
  · cases ho : aget s c!"OTHER_CPLUSPLUSFLAGS" with
    | none =>
      rw [ho] at h
      simp only [List.mem_singleton] at h
      subst h; revert h3; decide
    | some v => rw [ho] at h h1; exact h1 h

/-- The switches for C++. -/
theorem C93_cxx_switches (repr) (s : XSettings) (w : XcodeSwitch) (hw : w ∈ cxxSwitches)
    (h1 : w.flag ∉ xItems (aget s c!"OTHER_CPLUSPLUSFLAGS")) (h2 : w.flag ∉ xItems (aget s c!"OTHER_CFLAGS")) :
    w.flag ∈ xcodeCflagsCc repr s ↔ w.On s := by
  have hd : startsWith w.flag c!"-" = true ∧ startsWith w.flag c!"-s" = false := by
    clear h1 h2; revert w; decide
  have ho := notOther s _ h1 h2 hd.1
  have hs : w.flag ∉ cxxStandard repr s := by
    intro hf
    unfold cxxStandard at hf
    split at hf
    · cases hf
    · split at hf
      · simp only [List.mem_singleton] at hf; rw [hf] at hd; simp [startsWith] at hd
      · cases hf
  have hl : w.flag ∉ xAppendf repr s c!"CLANG_CXX_LIBRARY" c!"-stdlib=" [] := by
    intro hf
    unfold xAppendf at hf
    split at hf
    · simp only [List.mem_singleton] at hf; rw [hf] at hd; simp [startsWith] at hd
    · simp at hf
  unfold xcodeCflagsCc
  simp only [List.mem_append, hs, hl, ho, mem_flagIf, false_or, or_false]
  clear hs hl ho hd h1 h2
  simp only [cxxSwitches, List.mem_cons, List.not_mem_nil, or_false] at hw
  rcases hw with rfl | rfl | rfl | rfl | rfl <;> simp [xTest_on, XcodeSwitch.On]

/-- The language and the library for C++. -/
theorem C93_cxx_valued (repr) (s : XSettings) (rest : Str) :
    (c!"-std=" ++ rest ∉ xItems (aget s c!"OTHER_CPLUSPLUSFLAGS") → c!"-std=" ++ rest ∉ xItems (aget s c!"OTHER_CFLAGS") →
      (∀ v, aget s c!"CLANG_CXX_LANGUAGE_STANDARD" ≠ some (.list v)) →
      (c!"-std=" ++ rest ∈ xcodeCflagsCc repr s ↔
        rest ≠ [] ∧ aget s c!"CLANG_CXX_LANGUAGE_STANDARD" = some (.text rest))) ∧
    (c!"-stdlib=" ++ rest ∉ xItems (aget s c!"OTHER_CPLUSPLUSFLAGS") → c!"-stdlib=" ++ rest ∉ xItems (aget s c!"OTHER_CFLAGS") →
      (∀ v, aget s c!"CLANG_CXX_LIBRARY" ≠ some (.list v)) →
      (c!"-stdlib=" ++ rest ∈ xcodeCflagsCc repr s ↔ aget s c!"CLANG_CXX_LIBRARY" = some (.text rest))) := by
  constructor
  · intro h1 h2 h3
    have ho := notOther s _ h1 h2 rfl
    have hl : c!"-std=" ++ rest ∉ xAppendf repr s c!"CLANG_CXX_LIBRARY" c!"-stdlib=" [] := by
      unfold xAppendf
      split <;> simp
    unfold xcodeCflagsCc
    simp only [List.mem_append, ho, hl, mem_flagIf, or_false]
    unfold cxxStandard
    simp only [List.cons_append, List.nil_append, List.cons.injEq, Char.reduceEq, false_and, and_false, or_false]
    cases h : aget s c!"CLANG_CXX_LANGUAGE_STANDARD" with
    | none => simp
    | some v =>
      cases v with
      | list v => exact absurd h (h3 v)
      | text t =>
        by_cases ht : t = []
        · subst ht; simp [xTruthy]
        · simp [xTruthy, ht, xText]
          constructor
          · rintro rfl; exact ⟨ht, rfl⟩
          · exact fun h => h.2.symm
  · intro h1 h2 h3
    have ho := notOther s _ h1 h2 rfl
    have hs : c!"-stdlib=" ++ rest ∉ cxxStandard repr s := by
      unfold cxxStandard
      split
      · simp
      · split <;> simp
    unfold xcodeCflagsCc
    simp only [List.mem_append, ho, hs, mem_flagIf, or_false, false_or]
    unfold xAppendf
    simp only [List.cons_append, List.nil_append, List.cons.injEq, Char.reduceEq, false_and, and_false, or_false]
    cases h : aget s c!"CLANG_CXX_LIBRARY" with
    | none => simp
    | some v =>
      cases v with
      | list v => exact absurd h (h3 v)
      | text t => simp [xText, eq_comm]

/-- The switches for Objective-C, and the one for Objective-C++ only. -/
theorem C93_objc (s : XSettings) (f : Str) :
    (f ∈ xcodeCflagsObjC s ↔ ∃ w ∈ objcSwitches, w.flag = f ∧ w.On s) ∧
    (f ∈ xcodeCflagsObjCC s ↔ (∃ w ∈ objcSwitches, w.flag = f ∧ w.On s) ∨
      (f = c!"-fobjc-call-cxx-cdtors" ∧ aget s c!"GCC_OBJC_CALL_CXX_CDTORS" = some (.text c!"YES"))) := by
  have hunset : ∀ w : XcodeSwitch, w.whenUnset = false → (w.On s ↔ aget s w.setting = some (.text w.value)) := by
    intro w hw; unfold XcodeSwitch.On; simp [hw]
  have hset : ∀ k v d : Str, d ≠ v → (xTest s k v d = true ↔ aget s k = some (.text v)) := by
    intro k v d hd; rw [xTest_on]; simp [hd]
  have hfl : ∀ (b : Bool) (g : Str), f ∈ flagIf b g ↔ g = f ∧ b = true := by
    intro b g; rw [mem_flagIf]; exact ⟨fun h => ⟨h.2.symm, h.1⟩, fun h => ⟨h.2, h.1.symm⟩⟩
  have key : f ∈ xcodeCflagsObjC s ↔ ∃ w ∈ objcSwitches, w.flag = f ∧ w.On s := by
    have hgc : f ∈ (if xTest s c!"GCC_ENABLE_OBJC_GC" c!"supported" c!"unsupported" then [c!"-fobjc-gc"]
        else flagIf (xTest s c!"GCC_ENABLE_OBJC_GC" c!"required" c!"unsupported") c!"-fobjc-gc-only") ↔
        (c!"-fobjc-gc" = f ∧ aget s c!"GCC_ENABLE_OBJC_GC" = some (.text c!"supported")) ∨
        (c!"-fobjc-gc-only" = f ∧ aget s c!"GCC_ENABLE_OBJC_GC" = some (.text c!"required")) := by
      by_cases h : xTest s c!"GCC_ENABLE_OBJC_GC" c!"supported" c!"unsupported" = true
      · rw [if_pos h]
        rw [hset _ _ _ (by decide)] at h
        rw [h, List.mem_singleton]
        constructor
        · exact fun e => Or.inl ⟨e.symm, rfl⟩
        · rintro (e | e)
          · exact e.1.symm
          · simp at e
      · rw [if_neg h, hfl, hset _ _ _ (by decide)]
        rw [hset _ _ _ (by decide)] at h
        exact ⟨Or.inr, fun e => e.elim (fun e => absurd e.2 h) id⟩
    unfold xcodeCflagsObjC
    rw [List.mem_append, List.mem_append, hgc, hfl, hfl, hset _ _ _ (by decide), hset _ _ _ (by decide)]
    unfold objcSwitches
    rw [List.exists_mem_cons_iff, List.exists_mem_cons_iff, List.exists_mem_cons_iff, List.exists_mem_cons_iff,
      hunset _ rfl, hunset _ rfl, hunset _ rfl, hunset _ rfl]
    simp only [List.not_mem_nil, false_and, exists_false, or_false, or_assoc]
  refine ⟨key, ?_⟩
  unfold xcodeCflagsObjCC
  rw [List.mem_append, key, mem_flagIf, hset _ _ _ (by decide)]
  rw [and_comm (a := f = _)]

/-! ### Conditional settings -/

/-- A step of `_ConvertConditionalKeys`. -/
def conditionalStep (configname : Str) (d : XSettings) (x : Str × XVal) : XSettings :=
  (if endsWith x.1 c!"[sdk=iphoneos*]" ∧ endsWith configname c!"iphoneos" then
    aset d ((splitOn '[' x.1).headD []) ((aget d x.1).getD x.2)
  else d).filter fun y => decide (y.1 ≠ x.1)

theorem convert_eq (configname : Str) (s : XSettings) : convertConditional configname s =
    (s.filter fun x => endsWith x.1 c!"]").foldl (conditionalStep configname) s := rfl

/-- In a configuration that is not for devices, the settings with a condition are left out and the
others are kept. -/
theorem C93_conditional (configname : Str) (s : XSettings) (hc : endsWith configname c!"iphoneos" = false) :
    convertConditional configname s = s.filter fun x => !endsWith x.1 c!"]" := by
  have hstep : ∀ d x, conditionalStep configname d x = d.filter fun y => decide (y.1 ≠ x.1) := by
    intro d x; unfold conditionalStep; rw [if_neg]; simp [hc]
  have key : ∀ (l d : XSettings), l.foldl (conditionalStep configname) d =
      d.filter fun y => decide (∀ x ∈ l, y.1 ≠ x.1) := by
    intro l
    induction l with
    | nil => intro d; simp
    | cons x l ih =>
      intro d
      rw [List.foldl_cons, hstep, ih, List.filter_filter]
      apply List.filter_congr
      intro y _
      rw [Bool.eq_iff_iff]
      simp only [Bool.and_eq_true, decide_eq_true_eq, List.forall_mem_cons]
      exact and_comm
  rw [convert_eq, key]
  apply List.filter_congr
  intro y hy
  by_cases h : endsWith y.1 c!"]" = true
  · rw [h]
    simp only [Bool.not_true, decide_eq_false_iff_not]
    intro hall
    exact hall y (List.mem_filter.2 ⟨hy, h⟩) rfl
  · simp only [Bool.not_eq_true] at h
    rw [h]
    simp only [Bool.not_false, decide_eq_true_eq]
    intro x hx e
    have := (List.mem_filter.1 hx).2
    rw [← e, h] at this; cases this

theorem xaget_filter_ne (d : XSettings) (k k' : Str) :
    aget (d.filter fun y => decide (y.1 ≠ k)) k' = if k' = k then none else aget d k' := by
  induction d with
  | nil => simp [aget]
  | cons x d ih =>
    obtain ⟨a, v⟩ := x
    by_cases ha : a = k
    · subst ha
      simp only [List.filter_cons, ne_eq, not_true_eq_false, decide_false, Bool.false_eq_true, if_false]
      rw [ih]
      by_cases hk : k' = a
      · simp [hk]
      · simp [hk, aget, Ne.symm hk]
    · simp only [List.filter_cons, ne_eq, ha, not_false_eq_true, decide_true, if_true]
      unfold aget
      by_cases hak : a = k'
      · subst hak; simp [ha]
      · rw [if_neg hak, if_neg hak, ih]

theorem splitOn_head_plain (c : Char) : ∀ s : Str, c ∉ (splitOn c s).headD []
  | [] => by simp [splitOn]
  | x :: s => by
    have ih := splitOn_head_plain c s
    unfold splitOn
    by_cases h : x = c
    · simp [h]
    · rw [if_neg h]
      cases hs : splitOn c s with
      | nil => exact absurd hs splitOn_ne_nil
      | cons a l =>
        rw [hs] at ih
        simp only [List.headD_cons] at ih ⊢
        simp [ih, Ne.symm h]

theorem splitOn_head_append (c : Char) (rest : Str) : ∀ s : Str, c ∉ s → (splitOn c (s ++ c :: rest)).headD [] = s
  | [], _ => by simp [splitOn]
  | x :: s, h => by
    have hx : x ≠ c := fun e => h (by simp [e])
    have ih := splitOn_head_append c rest s (fun e => h (List.mem_cons_of_mem _ e))
    rw [List.cons_append]
    unfold splitOn
    rw [if_neg hx]
    cases hs : splitOn c (s ++ c :: rest) with
    | nil => exact absurd hs splitOn_ne_nil
    | cons a l => rw [hs] at ih; simpa using ih

theorem aget_conditionalStep (configname : Str) (d : XSettings) (x : Str × XVal) (k : Str) (hk : k ≠ x.1)
    (hh : endsWith x.1 c!"[sdk=iphoneos*]" = true → (splitOn '[' x.1).headD [] ≠ k) :
    aget (conditionalStep configname d x) k = aget d k := by
  unfold conditionalStep
  rw [xaget_filter_ne, if_neg hk]
  split
  · rename_i h
    rw [aget_aset, if_neg (Ne.symm (hh h.1))]
  · rfl

/-- In a configuration for devices, a setting for devices is taken in place of the one without a
condition. -/
theorem C93_device (configname : Str) (s : XSettings) (hc : endsWith configname c!"iphoneos" = true)
    (hn : (akeys s).Nodup) (k : Str) (hk : endsWith k c!"]" = false)
    (v : XVal) (hv : (k ++ c!"[sdk=iphoneos*]", v) ∈ s) (hkb : '[' ∉ k)
    (hone : ∀ x ∈ s, endsWith x.1 c!"[sdk=iphoneos*]" = true → (splitOn '[' x.1).headD [] = k →
      x.1 = k ++ c!"[sdk=iphoneos*]") :
    aget (convertConditional configname s) k = some v := by
  have hsuf : endsWith (k ++ c!"[sdk=iphoneos*]") c!"[sdk=iphoneos*]" = true := by
    unfold endsWith; rw [List.isSuffixOf_iff_suffix]; exact ⟨k, rfl⟩
  have hbr : endsWith (k ++ c!"[sdk=iphoneos*]") c!"]" = true := by
    unfold endsWith; rw [List.isSuffixOf_iff_suffix]; exact ⟨k ++ c!"[sdk=iphoneos*", by simp⟩
  have hkk : k ≠ k ++ c!"[sdk=iphoneos*]" := by
    intro e; rw [← e] at hbr; rw [hbr] at hk; cases hk
  have key : ∀ (l d : XSettings), (∀ x ∈ l, x ∈ s ∧ endsWith x.1 c!"]" = true) → (akeys l).Nodup →
      ((k ++ c!"[sdk=iphoneos*]" ∈ akeys l ∧ aget d (k ++ c!"[sdk=iphoneos*]") = some v) ∨
        (k ++ c!"[sdk=iphoneos*]" ∉ akeys l ∧ aget d k = some v)) →
      aget (l.foldl (conditionalStep configname) d) k = some v := by
    intro l
    induction l with
    | nil =>
      intro d _ _ h
      rcases h with ⟨h, _⟩ | ⟨_, h⟩
      · simp [akeys] at h
      · exact h
    | cons x l ih =>
      intro d hl hnd h
      rw [List.foldl_cons]
      have hxk : k ≠ x.1 := by
        rintro rfl; rw [(hl x (List.mem_cons_self ..)).2] at hk; cases hk
      have hnd' : x.1 ∉ akeys l ∧ (akeys l).Nodup := by simpa [akeys] using hnd
      apply ih _ (fun y hy => hl y (List.mem_cons_of_mem _ hy)) hnd'.2
      by_cases hx : x.1 = k ++ c!"[sdk=iphoneos*]"
      · right
        refine ⟨hx ▸ hnd'.1, ?_⟩
        have hd : aget d x.1 = some v := by
          rcases h with h | h
          · rw [hx]; exact h.2
          · exfalso; apply h.1; rw [← hx]; simp [akeys]
        unfold conditionalStep
        rw [xaget_filter_ne, if_neg hxk, if_pos ⟨by rw [hx]; exact hsuf, hc⟩, aget_aset, if_pos, hd]
        · rfl
        · rw [hx]; exact (splitOn_head_append '[' c!"sdk=iphoneos*]" k hkb).symm
      · have hd1 : aget (conditionalStep configname d x) k = aget d k :=
          aget_conditionalStep _ _ _ _ hxk
            (fun he e => hx (hone x (hl x (List.mem_cons_self ..)).1 he e))
        have hd2 : aget (conditionalStep configname d x) (k ++ c!"[sdk=iphoneos*]") =
            aget d (k ++ c!"[sdk=iphoneos*]") := by
          apply aget_conditionalStep _ _ _ _ (Ne.symm hx)
          intro _ e
          have := splitOn_head_plain '[' x.1
          rw [e] at this
          exact this (by simp)
        rw [hd1, hd2]
        rcases h with h | h
        · left
          refine ⟨?_, h.2⟩
          have : k ++ c!"[sdk=iphoneos*]" = x.1 ∨ k ++ c!"[sdk=iphoneos*]" ∈ akeys l := by
            simpa [akeys] using h.1
          exact this.resolve_left (Ne.symm hx)
        · right
          refine ⟨fun hm => h.1 ?_, h.2⟩
          have : akeys (x :: l) = x.1 :: akeys l := rfl
          rw [this]; exact List.mem_cons_of_mem _ hm
  rw [convert_eq]
  apply key
  · intro x hx; exact List.mem_filter.1 hx
  · exact hn.sublist (List.filter_sublist.map _)
  · left
    exact ⟨List.mem_map.2 ⟨_, List.mem_filter.2 ⟨hv, hbr⟩, rfl⟩, aget_of_mem hn hv⟩

/-- A setting with no condition, and with no setting for devices of its name, is kept. -/
theorem C93_unconditional (configname : Str) (s : XSettings) (k : Str) (hk : endsWith k c!"]" = false)
    (hone : ∀ x ∈ s, endsWith x.1 c!"[sdk=iphoneos*]" = true → (splitOn '[' x.1).headD [] ≠ k) :
    aget (convertConditional configname s) k = aget s k := by
  have key : ∀ (l d : XSettings), (∀ x ∈ l, x ∈ s ∧ endsWith x.1 c!"]" = true) →
      aget (l.foldl (conditionalStep configname) d) k = aget d k := by
    intro l
    induction l with
    | nil => intro d _; rfl
    | cons x l ih =>
      intro d hl
      have hx := hl x (List.mem_cons_self ..)
      rw [List.foldl_cons, ih _ (fun y hy => hl y (List.mem_cons_of_mem _ hy))]
      apply aget_conditionalStep
      · rintro rfl; rw [hx.2] at hk; cases hk
      · exact hone x hx.1
  rw [convert_eq]
  exact key _ _ (fun x hx => List.mem_filter.1 hx)

/-! ### Cases -/

/-- A machine: Xcode 15 with one SDK. -/
def aMac : XMachine where
  sdkPath := fun n => if n = c!"macosx" then some c!"/SDKs/MacOSX14.sdk" else none
  xcodeVersion := c!"1500"
  crossCompile := false

/-- Settings as many addons have them. -/
def addonSettings : XSettings := [
  (c!"GCC_ENABLE_CPP_EXCEPTIONS", .text c!"YES"), (c!"CLANG_CXX_LIBRARY", .text c!"libc++"),
  (c!"MACOSX_DEPLOYMENT_TARGET", .text c!"10.15"), (c!"GCC_SYMBOLS_PRIVATE_EXTERN", .text c!"YES"),
  (c!"SDKROOT", .text c!"macosx"), (c!"ARCHS", .list [c!"arm64"]), (c!"GCC_ENABLE_CPP_RTTI", .text c!"NO"),
  (c!"WARNING_CFLAGS", .list [c!"-Wall", c!"-Wno-unused"]), (c!"OTHER_CFLAGS", .list [c!"-g"]),
  (c!"OTHER_CPLUSPLUSFLAGS", .list [c!"$(inherited)", c!"-fno-plt"])]

set_option maxRecDepth 4000 in
example : xcodeCflags (fun _ => []) aMac addonSettings [c!"$(SDKROOT)/Frameworks"] none = some
    [c!"-isysroot", c!"/SDKs/MacOSX14.sdk", c!"-fasm-blocks", c!"-mpascal-strings", c!"-Os", c!"-gdwarf-2",
     c!"-fvisibility=hidden", c!"-mmacosx-version-min=10.15", c!"-arch", c!"arm64", c!"-Wall", c!"-Wno-unused",
     c!"-F/SDKs/MacOSX14.sdk/Frameworks"] := by decide +kernel

example : xcodeCflagsCc (fun _ => []) addonSettings =
    [c!"-stdlib=libc++", c!"-fno-rtti", c!"-g", c!"-fno-plt"] := by decide +kernel

example : xcodeCflagsC (fun _ => []) [(c!"GCC_C_LANGUAGE_STANDARD", .text c!"c99"), (c!"OTHER_CFLAGS", .list [c!"-g"])] =
    [c!"-std=c99", c!"-g"] := by decide +kernel

/-- The hypotheses about flags not written hold for these settings. -/
example : ∀ w ∈ allSwitches, NotWritten aMac addonSettings none w.flag := by
  intro w hw
  refine ⟨?_, ?_, ?_, ?_, ?_⟩
  · revert w; decide +kernel
  · intro root
    show (if root = c!"macosx" then some c!"/SDKs/MacOSX14.sdk" else none) ≠ some w.flag
    split
    · revert w; decide +kernel
    · simp
  · revert w; decide +kernel
  · revert w; decide +kernel
  · simp

/-- Debugging information in the old format is refused. -/
example : xcodeCflags (fun _ => []) aMac [(c!"DEBUG_INFORMATION_FORMAT", .text c!"stabs")] [] none = none := by
  decide +kernel

/-- Two architectures: neither is built (`C93_fat`). -/
theorem C93_fat_witness :
    activeArchs aMac [(c!"ARCHS", .list [c!"x86_64", c!"arm64"])] [] = [c!"x86_64", c!"arm64"] ∧
    archOf aMac [(c!"ARCHS", .list [c!"x86_64", c!"arm64"])] [] none = c!"i386" := by decide +kernel

/-- A text where a list is expected is taken apart: every character is a flag. -/
theorem C93_text_witness :
    xcodeCflagsC (fun _ => []) [(c!"OTHER_CFLAGS", .text c!"-O3")] = [c!"-", c!"O", c!"3"] := by decide +kernel

example : activeArchs aMac [] c!"iphonesimulator17.0" = [c!"i386", c!"x86_64"] := by decide +kernel
example : activeArchs aMac [(c!"ARCHS", .list [c!"arm64", c!"$(ARCHS_STANDARD)", c!"$(OTHER)", c!"arm64"]),
    (c!"VALID_ARCHS", .list [c!"arm64", c!"x86_64"])] [] = [c!"arm64", c!"x86_64"] := by decide +kernel

example : convertConditional c!"Debug-iphoneos"
    [(c!"A", .text c!"1"), (c!"A[sdk=iphoneos*]", .text c!"2"), (c!"B[arch=x]", .text c!"3")] =
    [(c!"A", .text c!"2")] := by decide +kernel
example : convertConditional c!"Debug"
    [(c!"A", .text c!"1"), (c!"A[sdk=iphoneos*]", .text c!"2"), (c!"B[arch=x]", .text c!"3")] =
    [(c!"A", .text c!"1")] := by decide +kernel

example : xcodeCflagsObjCC [(c!"GCC_ENABLE_OBJC_GC", .text c!"required"), (c!"CLANG_ENABLE_OBJC_ARC", .text c!"YES"),
    (c!"GCC_OBJC_CALL_CXX_CDTORS", .text c!"YES")] =
    [c!"-fobjc-gc-only", c!"-fobjc-arc", c!"-fobjc-call-cxx-cdtors"] := by decide +kernel

end Gyp
