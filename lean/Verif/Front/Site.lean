import Verif.Front.Assembler
/-!
# The pages of the documentation

Model of the navigation of `docs/src`: `languages.ts`, `config.ts`, `layouts/MainLayout.astro`,
`components/LeftSidebar/LeftSidebar.astro`, and of the choice of the theme:
`components/RightSidebar/ThemeToggleButton.tsx`, `components/HeadCommon.astro`. Not modelled: how Astro
turns the files of `src/pages` into pages, the styles, the search box, the menu of languages (not shown,
there is only one language), the footer (not used).
-/
namespace Mpp.Front

/-! ## Languages -/

def isLower (c : Char) : Bool := 'a' ≤ c && c ≤ 'z'
def isUpper (c : Char) : Bool := 'A' ≤ c && c ≤ 'Z'

/-- `[A-Z]{0,2}\/`, after the letters `pre`: the letters. A capital is no slash, so only the longest
choice can lead to a match. -/
def langTail (pre : Str) (s : Str) : Option Str :=
  match s with
  | c :: r =>
    if isUpper c then
      match r with
      | d :: r' =>
        if isUpper d then (if r'.head? = some '/' then some (pre ++ [c, d]) else none)
        else if d = '/' then some (pre ++ [c]) else none
      | [] => none
    else if c = '/' then some pre else none
  | [] => none

/-- `langPathRegex` (`languages.ts:5`) at the start of a text: the first group. -/
def langHere : Str → Option Str
  | '/' :: a :: b :: r =>
    if isLower a && isLower b then
      match r with
      | '-' :: r' => langTail [a, b, '-'] r'
      | _ => langTail [a, b] r
    else none
  | _ => none

/-- `pathname.match(langPathRegex)`: the first group of the first match. -/
def langMatch : Str → Option Str
  | [] => none
  | c :: s => (langHere (c :: s)).or (langMatch s)

/-- `getLanguageFromURL` (`languages.ts:7-10`). -/
def getLanguage (pathname : Str) : Str := (langMatch pathname).getD "es".toList

/-! ## The side bar -/

/-- An item of `SIDEBAR` (`config.ts:22-77`): a header or a link. -/
inductive SideItem
  | head (text : String)
  | link (text link : String)
  deriving DecidableEq

/-- A section of the side bar; without `head` it is the one made for links before the first header. -/
structure Section where
  head : Option String
  children : List (String × String)
  deriving DecidableEq

/-- `SIDEBAR.es` (`config.ts:23-76`). -/
def sidebarEs : List SideItem := [
  .head "",
  .head "Sobre mpp",
  .link "Introducción" "es/introduction",
  .link "Arquitectura" "es/architecture",
  .link "Detalles" "es/about",
  .head "COMPONENTES",
  .link "Visión general" "es/components",
  .link "Banco de registros" "es/components/registers-bank",
  .link "Contador de programa (PC)" "es/components/PC",
  .link "Acumulador (ACUM)" "es/components/ACUM",
  .link "Registro auxiliar (2OP)" "es/components/2OP",
  .link "Stack pointer (SP)" "es/components/SP",
  .link "Registros de direccionamiento (H-L)" "es/components/HL",
  .link "Memoria" "es/components/MEMORY",
  .link "Unidad de control" "es/components/CU",
  .link "Depurador" "es/components/debugger",
  .head "PROGRAMACIÓN",
  .link "Instrucciones soportadas" "es/instructions/instructions",
  .link "MOV" "es/instructions/MOV",
  .link "SUB" "es/instructions/SUB",
  .link "ADD" "es/instructions/ADD",
  .link "INC" "es/instructions/INC",
  .link "CMP" "es/instructions/CMP",
  .link "AND" "es/instructions/AND",
  .link "OR" "es/instructions/OR",
  .link "XOR" "es/instructions/XOR",
  .link "CMA" "es/instructions/CMA",
  .link "LDA" "es/instructions/LDA",
  .link "STA" "es/instructions/STA",
  .link "LDAX" "es/instructions/LDAX",
  .link "STAX" "es/instructions/STAX",
  .link "SFA" "es/instructions/SFA",
  .link "LFA" "es/instructions/LFA",
  .link "INISP" "es/instructions/INISP",
  .link "PUSH" "es/instructions/PUSH",
  .link "POP" "es/instructions/POP",
  .link "BEQ" "es/instructions/BEQ",
  .link "BC" "es/instructions/BC",
  .link "JMP" "es/instructions/JMP",
  .link "CALL" "es/instructions/CALL",
  .link "RET" "es/instructions/RET",
  .link "FIN" "es/instructions/FIN",
  .head "Ejemplos",
  .link "Multiplicación" "es/examples/multiplication",
  .link "Factorial" "es/examples/factorial",
  .link "Función maliciosa" "es/examples/malicious-function",
  .head "Experimental",
  .link "Transpilador" "es/transpiler"]

/-- `SIDEBAR[langCode]`; `none` is `undefined`. -/
def sidebarOf (lang : Str) : Option (List SideItem) :=
  if lang = "es".toList then some sidebarEs else none

/-- `col[col.length - 1].children.push(item)`; `none` is the exception when `col` is empty. -/
def pushChild (col : List Section) (c : String × String) : Option (List Section) :=
  match col.getLast? with
  | some s => some (col.dropLast ++ [{ s with children := s.children ++ [c] }])
  | none => none

/-- One call of the function given to `reduce` (`LeftSidebar.astro:8-22`). -/
def sideStep (col : List Section) (i : Nat) : SideItem → Option (List Section)
  | .head t => some (col ++ [⟨some t, []⟩])
  | .link t l => pushChild (if i = 0 then col ++ [⟨none, []⟩] else col) (t, l)

/-- The `reduce` from item number `i` on. -/
def sideFrom (col : List Section) (i : Nat) : List SideItem → Option (List Section)
  | [] => some col
  | x :: xs => (sideStep col i x).bind fun col => sideFrom col (i + 1) xs

/-- `sidebarSections` (`LeftSidebar.astro:8-22`) of a list of items. -/
def sections (items : List SideItem) : Option (List Section) := sideFrom [] 0 items

/-! ## A page -/

/-- `Astro.url.pathname.replace(/\..*/, '')` (`MainLayout.astro:12`); a path of an address contains no
line terminators. -/
def currentPage (pathname : Str) : Str := pathname.takeWhile (· ≠ '.')

/-- `s.replace(/\/$/, '')` -/
def dropSlash (s : Str) : Str := if s.getLast? = some '/' then s.dropLast else s

/-- `currentFile` (`MainLayout.astro:13-14`); `file` is `frontmatter.file`. -/
def currentFile (pathname file : Str) : Str :=
  "src/pages".toList ++ dropSlash (currentPage pathname) ++ '.' :: (split '.' file).getLastD []

/-- The side bar of a page (`LeftSidebar.astro:4-45`): for every section the addresses of the
links (`Astro.site.pathname` is `/`), each with its `aria-current`. `none` when the page cannot be rendered. -/
def sidebar (pathname : Str) : Option (List (Option String × List (Str × Bool))) :=
  let page := currentPage pathname
  (sidebarOf (getLanguage page)).bind fun items => (sections items).map fun ss =>
    ss.map fun s => (s.head, s.children.map fun c => ('/' :: c.2.toList, decide (page.drop 1 = c.2.toList)))

/-- The files `docs/src/pages/es/**/*.md` and `.mdx`: path and extension. -/
def docPages : List (String × String) := [
  ("es/about", "mdx"),
  ("es/architecture", "md"),
  ("es/components", "md"),
  ("es/components/2OP", "mdx"),
  ("es/components/ACUM", "mdx"),
  ("es/components/CU", "mdx"),
  ("es/components/HL", "mdx"),
  ("es/components/MEMORY", "mdx"),
  ("es/components/PC", "mdx"),
  ("es/components/SP", "mdx"),
  ("es/components/debugger", "mdx"),
  ("es/components/registers-bank", "mdx"),
  ("es/examples/factorial", "mdx"),
  ("es/examples/malicious-function", "mdx"),
  ("es/examples/multiplication", "mdx"),
  ("es/instructions/ADD", "mdx"),
  ("es/instructions/AND", "mdx"),
  ("es/instructions/BC", "mdx"),
  ("es/instructions/BEQ", "mdx"),
  ("es/instructions/CALL", "mdx"),
  ("es/instructions/CMA", "mdx"),
  ("es/instructions/CMP", "mdx"),
  ("es/instructions/FIN", "mdx"),
  ("es/instructions/INC", "mdx"),
  ("es/instructions/INISP", "mdx"),
  ("es/instructions/JMP", "mdx"),
  ("es/instructions/LDA", "mdx"),
  ("es/instructions/LDAX", "mdx"),
  ("es/instructions/LFA", "mdx"),
  ("es/instructions/MOV", "mdx"),
  ("es/instructions/OR", "mdx"),
  ("es/instructions/POP", "mdx"),
  ("es/instructions/PUSH", "mdx"),
  ("es/instructions/RET", "mdx"),
  ("es/instructions/SFA", "mdx"),
  ("es/instructions/STA", "mdx"),
  ("es/instructions/STAX", "mdx"),
  ("es/instructions/SUB", "mdx"),
  ("es/instructions/XOR", "mdx"),
  ("es/instructions/instructions", "md"),
  ("es/introduction", "md"),
  ("es/transpiler", "mdx")]

/-! ## The theme -/

/-- What a page of the documentation knows about the theme: `localStorage.theme`, the state of
`ThemeToggle`, and whether the root has the class `theme-dark`. -/
structure Themed where
  stored : Option Str
  theme : Str
  dark : Bool

/-- `ThemeToggleButton.tsx:34-45`, in the browser; the empty text counts as nothing. -/
def firstTheme (stored : Option Str) (prefersDark : Bool) : Str :=
  match stored with
  | some (c :: s) => c :: s
  | _ => if prefersDark then "dark".toList else "light".toList

/-- The script in the head of the page (`HeadCommon.astro:29-37`): whether it sets `theme-dark`. -/
def headDark (stored : Option Str) (prefersDark : Bool) : Bool :=
  decide (stored = some "dark".toList) || ((stored.getD []).isEmpty && prefersDark)

/-- The effect of the button (`ThemeToggleButton.tsx:47-54`): whether it sets `theme-dark`. -/
def effectDark (theme : Str) : Bool := decide (theme ≠ "light".toList)

/-- A page is opened and its button has appeared. -/
def Themed.open (stored : Option Str) (prefersDark : Bool) : Themed :=
  ⟨stored, firstTheme stored prefersDark, effectDark (firstTheme stored prefersDark)⟩

/-- `onChange` of the radio button of theme `t` (`ThemeToggleButton.tsx:71-74`) and the effect after it. -/
def Themed.choose (t : Str) (_ : Themed) : Themed := ⟨some t, t, effectDark t⟩

/-- `themes` (`ThemeToggleButton.tsx:6`). -/
def themes : List Str := ["light".toList, "dark".toList]

/-- The radio buttons that are checked (`ThemeToggleButton.tsx:58-67`). -/
def Themed.checked (s : Themed) : List Str := themes.filter (· = s.theme)

end Mpp.Front
