import Verif.Model.Editor

/-! # The saved replacements: /repo/hun_law/fixups/replacement_fixups.py

Written by tools/fixups.py. -/

namespace Verif

/-- replacement_fixups.py:8-13. -/
def saved1 : Str × List Replacement := (py"2010. évi CLIII. törvény", [
  ⟨py"a „15 munkanapon belül” szöveg, valamint 140. § (6) bekezdésében a 8 munkanapon belül” szövegrész helyébe",
    py"a „15 munkanapon belül” szöveg, valamint 140. § (6) bekezdésében a „8 munkanapon belül” szövegrész helyébe",
    none⟩])

/-- replacement_fixups.py:14-19. -/
def saved2 : Str × List Replacement := (py"2010. évi CLIX. törvény", [
  ⟨py"résztvevő a rendszerüzemeltető számára ismert;”",
    py"résztvevő a rendszerüzemeltető számára ismert;",
    none⟩])

/-- replacement_fixups.py:20-37. -/
def saved3 : Str × List Replacement := (py"2010. évi CLXXII. törvény", [
  ⟨py"tesz közzé.”",
    py"tesz közzé.",
    none⟩,
  ⟨py"vonatokról, valamint vasúti állomásról és megállóhelyről a szolgáltató a honlapján tájékoztatást tesz közzé.”",
    py"vonatokról, valamint vasúti állomásról és megállóhelyről a szolgáltató a honlapján tájékoztatást tesz közzé.",
    none⟩,
  ⟨py"szövegrész helyébe a „miniszterrel egyetértésben” szöveg, 74. § (1) bekezdés m) pontjában az „is – „ szövegrész",
    py"szövegrész helyébe a „miniszterrel egyetértésben” szöveg, 74. § (1) bekezdés m) pontjában az „is – ” szövegrész",
    none⟩,
  ⟨py"helyébe az – egyetértésben” szöveg, 74. § (2) bekezdés k) és l) pontjában a „miniszter az” szövegrész helyébe",
    py"helyébe az „– egyetértésben” szöveg, 74. § (2) bekezdés k) és l) pontjában a „miniszter az” szövegrész helyébe",
    none⟩])

/-- replacement_fixups.py:38-43. -/
def saved4 : Str × List Replacement := (py"2010. évi CLXXIII. törvény", [
  ⟨py"a „jelölt tag” szövegrész helyébe a „kinevezett tag” szöveg lép.”",
    py"a „jelölt tag” szövegrész helyébe a „kinevezett tag” szöveg lép.",
    none⟩])

/-- replacement_fixups.py:44-49. -/
def saved5 : Str × List Replacement := (py"2010. évi CLXXX. törvény", [
  ⟨py"jogosult, ha a szerződésében a teljes önkéntesség tényét nem rögzítette.”",
    py"jogosult, ha a szerződésében a teljes önkéntesség tényét nem rögzítette.",
    none⟩])

/-- replacement_fixups.py:50-55. -/
def saved6 : Str × List Replacement := (py"2010. évi CLXXXIII. törvény", [
  ⟨py"(4) E törvény 67. §-a, 165. § (2) bekezdés e) és f) pontja 2011. szeptember 1-jén lép hatályba.”",
    py"(4) E törvény 67. §-a, 165. § (2) bekezdés e) és f) pontja 2011. szeptember 1-jén lép hatályba.",
    none⟩])

/-- replacement_fixups.py:56-61. -/
def saved7 : Str × List Replacement := (py"2010. évi CXLVIII. törvény", [
  ⟨py"(7) bekezdésében a „huszonkét” szövegrész helyébe a „harminc” szöveg lép.”",
    py"(7) bekezdésében a „huszonkét” szövegrész helyébe a „harminc” szöveg lép.",
    none⟩])

/-- replacement_fixups.py:62-67. -/
def saved8 : Str × List Replacement := (py"2011. évi CCIX. törvény", [
  ⟨py"alkalmazni.”",
    py"alkalmazni.””",
    none⟩])

/-- replacement_fixups.py:68-73. -/
def saved9 : Str × List Replacement := (py"2011. évi CCVII. törvény", [
  ⟨py"g) 2. számú melléklet 10. pontja.”",
    py"g) 2. számú melléklet 10. pontja.",
    none⟩])

/-- replacement_fixups.py:74-83. -/
def saved10 : Str × List Replacement := (py"2011. évi CLIV. törvény", [
  ⟨py"g) 92. § (3) bekezdés első mondatában az ”, illetve a megyei önkormányzat a településen, illetve a megyében”",
    py"g) 92. § (3) bekezdés első mondatában az „, illetve a megyei önkormányzat a településen, illetve a megyében”",
    none⟩,
  ⟨py"j) 89/B. § (7) bekezdésében a „megyei önkormányzat” szövegrész helyébe a Kormány általános hatáskörű területi",
    py"j) 89/B. § (7) bekezdésében a „megyei önkormányzat” szövegrész helyébe a „Kormány általános hatáskörű területi",
    none⟩])

/-- replacement_fixups.py:84-89. -/
def saved11 : Str × List Replacement := (py"2011. évi CLXI. törvény", [
  ⟨py",,A munkaköri kötelességeimet részrehajlás nélkül, lelkiismeretesen, kizárólag a jogszabályoknak megfelelően,",
    py"„A munkaköri kötelességeimet részrehajlás nélkül, lelkiismeretesen, kizárólag a jogszabályoknak megfelelően,",
    none⟩])

/-- replacement_fixups.py:90-95. -/
def saved12 : Str × List Replacement := (py"2011. évi CLXII. törvény", [
  ⟨py",,Fogadom, hogy a rám bízott ügyeket tisztességes eljárásban, részrehajlás nélkül, lelkiismeretesen, kizárólag",
    py"„Fogadom, hogy a rám bízott ügyeket tisztességes eljárásban, részrehajlás nélkül, lelkiismeretesen, kizárólag",
    none⟩])

/-- replacement_fixups.py:96-101. -/
def saved13 : Str × List Replacement := (py"2011. évi CLXVI. törvény", [
  ⟨py"„(A kiadások fedezetét a következő bevételek képezik:",
    py"(A kiadások fedezetét a következő bevételek képezik:",
    none⟩])

/-- replacement_fixups.py:102-107. -/
def saved14 : Str × List Replacement := (py"2011. évi CLXX. törvény", [
  ⟨py"(2) Az 1–25. §, a 27. § és az 1. melléklet 2012. január 1-jén lép hatályba.”",
    py"(2) Az 1–25. §, a 27. § és az 1. melléklet 2012. január 1-jén lép hatályba.",
    none⟩])

/-- replacement_fixups.py:108-113. -/
def saved15 : Str × List Replacement := (py"2011. évi CLXXII. törvény", [
  ⟨py"a bi) alpontjában a „Magyar Köztársaság” szövegrész helyébe a „Magyarország” szöveg lép.”",
    py"a bi) alpontjában a „Magyar Köztársaság” szövegrész helyébe a „Magyarország” szöveg lép.",
    none⟩])

/-- replacement_fixups.py:114-119. -/
def saved16 : Str × List Replacement := (py"2011. évi CLXXIII. törvény", [
  ⟨py"„kihirdetésétől” szövegrész helyébe a „kézbesítésétől” szöveg lép.”",
    py"„kihirdetésétől” szövegrész helyébe a „kézbesítésétől” szöveg lép.",
    none⟩])

/-- replacement_fixups.py:120-129. -/
def saved17 : Str × List Replacement := (py"2011. évi CLXXV. törvény", [
  ⟨py"„ „45. § A Tao tv. a következő 29/Q. §-sal egészül ki:",
    py"„45. § A Tao tv. a következő 29/Q. §-sal egészül ki:",
    none⟩,
  ⟨py"szöveg lép .",
    py"szöveg lép .”",
    none⟩])

/-- replacement_fixups.py:130-139. -/
def saved18 : Str × List Replacement := (py"2011. évi CLXXVI. törvény", [
  ⟨py"(3) bekezdésében foglaltakon túl – „ szövegrész helyébe az „– az 5/A. § (3) bekezdésében és (11) bekezdésének",
    py"(3) bekezdésében foglaltakon túl – ” szövegrész helyébe az „– az 5/A. § (3) bekezdésében és (11) bekezdésének",
    none⟩,
  ⟨py"g) 4. számú melléklete.”",
    py"g) 4. számú melléklete.",
    none⟩])

/-- replacement_fixups.py:140-145. -/
def saved19 : Str × List Replacement := (py"2011. évi CLXXXIV. törvény", [
  ⟨py"helyébe a ”kormányzati szolgálati, közszolgálati, vagy” szöveg,",
    py"helyébe a „kormányzati szolgálati, közszolgálati, vagy” szöveg,",
    none⟩])

/-- replacement_fixups.py:146-155. -/
def saved20 : Str × List Replacement := (py"2011. évi CV. törvény", [
  ⟨py"b) ha egyenlőtlen munkaidő-beosztásban kíván dolgozni, a munkaidő-beosztásra vonatkozó javaslatáról.”",
    py"b) ha egyenlőtlen munkaidő-beosztásban kíván dolgozni, a munkaidő-beosztásra vonatkozó javaslatáról.",
    none⟩,
  ⟨py"történő foglalkoztatásnak a Módtv. hatálybalépését követően ledolgozott időtartama tekintetében kell alkalmazni.”",
    py"történő foglalkoztatásnak a Módtv. hatálybalépését követően ledolgozott időtartama tekintetében kell alkalmazni.",
    none⟩])

/-- replacement_fixups.py:156-161. -/
def saved21 : Str × List Replacement := (py"2011. évi CVI. törvény", [
  ⟨py"(6) bekezdésében, valamint 37/C. § (8) bekezdés a) pontjában a ”bérpótló juttatásra” szövegrész helyébe",
    py"(6) bekezdésében, valamint 37/C. § (8) bekezdés a) pontjában a „bérpótló juttatásra” szövegrész helyébe",
    none⟩])

/-- replacement_fixups.py:162-179. -/
def saved22 : Str × List Replacement := (py"2011. évi CVII. törvény", [
  ⟨py"szempontjából nem megfelelő, akkor annak üzemben tartóját terhelik.”",
    py"szempontjából nem megfelelő, akkor annak üzemben tartóját terhelik.",
    none⟩,
  ⟨py"49/a. Helymeghatározási szolgáltatás: olyan kapcsolódó szolgáltatás, amelyet az előfizető vagy felhasználó",
    py"„49/a. Helymeghatározási szolgáltatás: olyan kapcsolódó szolgáltatás, amelyet az előfizető vagy felhasználó",
    none⟩,
  ⟨py"szöveg,”, a 31. § (3) bekezdésében „Az (1)–(2) bekezdésben” szövegrész helyébe „A (2) bekezdésben” szöveg, a 33. §",
    py"szöveg, a 31. § (3) bekezdésében „Az (1)–(2) bekezdésben” szövegrész helyébe „A (2) bekezdésben” szöveg, a 33. §",
    none⟩,
  ⟨py"rendelkezések alkalmazandók.”",
    py"rendelkezések alkalmazandók.",
    none⟩])

/-- replacement_fixups.py:180-197. -/
def saved23 : Str × List Replacement := (py"2011. évi CXCIII. törvény", [
  ⟨py"megszüntetéséről a befektetési alapkezelő dönt, amelynek során az ”IL” sorozatjelű befektetési jegyeket az alap",
    py"megszüntetéséről a befektetési alapkezelő dönt, amelynek során az „IL” sorozatjelű befektetési jegyeket az alap",
    none⟩,
  ⟨py"a „2011. december 31-ig” szövegrész helyébe a „2012. június 30-ig” szöveg lép.”",
    py"a „2011. december 31-ig” szövegrész helyébe a „2012. június 30-ig” szöveg lép.",
    none⟩,
  ⟨py"hatósági felügyeleti,” szöveg lép.”",
    py"hatósági felügyeleti,” szöveg lép.",
    none⟩,
  ⟨py"valamint e szolgáltatások fedezetéről szóló 1997. évi LXXX. törvény 3. § (2) bekezdése szerinti kötelezettségét.”",
    py"valamint e szolgáltatások fedezetéről szóló 1997. évi LXXX. törvény 3. § (2) bekezdése szerinti kötelezettségét.””",
    none⟩])

/-- replacement_fixups.py:198-211. -/
def saved24 : Str × List Replacement := (py"2011. évi CXCVII. törvény", [
  ⟨py"bocsátott vagyonból.”",
    py"bocsátott vagyonból.",
    some [py"biztosíték teljesítéséért a vezetőtől való behajthatatlanság esetén kezesként felel. A külföldi székhelyű vállalkozás", py"az említett kezesi kötelezettségéből eredő fizetési kötelezettségét nem teljesítheti a fióktelepe rendelkezésére"]⟩,
  ⟨py"(8) bekezdése.”",
    py"(8) bekezdése.",
    none⟩])

/-- replacement_fixups.py:212-217. -/
def saved25 : Str × List Replacement := (py"2011. évi CXLIV. törvény", [
  ⟨py"Ireland signed at Budapest on 28th November 1977 (”the prior Convention”) shall cease to be effective from the dates",
    py"Ireland signed at Budapest on 28th November 1977 („the prior Convention”) shall cease to be effective from the dates",
    none⟩])

/-- replacement_fixups.py:218-223. -/
def saved26 : Str × List Replacement := (py"2011. évi CXLV. törvény", [
  ⟨py"\"C O N V E N T I O N",
    py"„C O N V E N T I O N",
    none⟩])

/-- replacement_fixups.py:224-232. -/
def saved27 : Str × List Replacement := (py"2011. évi CXXV. törvény", [
  ⟨py"a 2012. január–március tárgynegyedévre kell alkalmazni.”",
    py"a 2012. január–március tárgynegyedévre kell alkalmazni.",
    some [py"CXXV. törvénnyel megállapított 33. § (2), (3), (6) bekezdéseit 2012. január 1. napjától és első alkalommal"]⟩])

/-- replacement_fixups.py:233-238. -/
def saved28 : Str × List Replacement := (py"2011. évi CXXXVI. törvény", [
  ⟨py"2. § Az Országgyűlés Szigetvár városnak a „Leghősiesebb Város” ( „Civitas Invicta\") címet adományozza.",
    py"2. § Az Országgyűlés Szigetvár városnak a „Leghősiesebb Város” ( „Civitas Invicta”) címet adományozza.",
    none⟩])

/-- replacement_fixups.py:239-248. -/
def saved29 : Str × List Replacement := (py"2011. évi LIX. törvény", [
  ⟨py"szövegrész.”",
    py"szövegrész.",
    none⟩,
  ⟨py"(17) A VET. 171/A. §-a 2012. szeptember 30-án hatályát veszti.”",
    py"(17) A VET. 171/A. §-a 2012. szeptember 30-án hatályát veszti.",
    none⟩])

/-- replacement_fixups.py:249-254. -/
def saved30 : Str × List Replacement := (py"2011. évi LXV. törvény", [
  ⟨py"Szlovén Köztársaság A 20. cikkben kijelölt szolgálatok",
    py"Szlovén Köztársaság A 20. cikkben kijelölt szolgálatok”",
    none⟩])

/-- replacement_fixups.py:255-264. -/
def saved31 : Str × List Replacement := (py"2011. évi LXXXIV. törvény", [
  ⟨py"a silent partner ( „stiller Gesellschafter“) from his participation as such, or from a loan with an interest rate linked to",
    py"a silent partner ( „stiller Gesellschafter”) from his participation as such, or from a loan with an interest rate linked to",
    none⟩,
  ⟨py"borrower’s profit ( „partiarisches Darlehen“) or from profit sharing bonds ( „Gewinnobligationen“) within",
    py"borrower’s profit ( „partiarisches Darlehen”) or from profit sharing bonds ( „Gewinnobligationen”) within",
    none⟩])

/-- replacement_fixups.py:265-270. -/
def saved32 : Str × List Replacement := (py"2011. évi LXXXVI. törvény", [
  ⟨py"(5) E törvény 2012. május 2-án hatályát veszti.”",
    py"(5) E törvény 2012. május 2-án hatályát veszti.",
    none⟩])

/-- replacement_fixups.py:271-280. -/
def saved33 : Str × List Replacement := (py"2011. évi XCVI. törvény", [
  ⟨py"35. § (1) A MódTv. 82. § (1) bekezdésében a „2010. október 31.” szövegrész helyébe a 2011. április 30.” szöveg lép.",
    py"35. § (1) A MódTv. 82. § (1) bekezdésében a „2010. október 31.” szövegrész helyébe a „2011. április 30.” szöveg lép.",
    none⟩,
  ⟨py"Zsigmond Király Főiskola, Budapest\"",
    py"Zsigmond Király Főiskola, Budapest”",
    none⟩])

/-- replacement_fixups.py:281-286. -/
def saved34 : Str × List Replacement := (py"2011. évi XLVI. törvény", [
  ⟨py"kifizetett bevétel, illetve a jogviszony megszűnésekor a magánszemélyt megillető jubileumi jutalom.\"",
    py"kifizetett bevétel, illetve a jogviszony megszűnésekor a magánszemélyt megillető jubileumi jutalom.”",
    none⟩])

/-- replacement_fixups.py:287-292. -/
def saved35 : Str × List Replacement := (py"2011. évi XXIII. törvény", [
  ⟨py"helyébe az „az aktív korúak ellátására való jogosultság keretében megállapított pénzbeli ellátásban” szöveg lép.”",
    py"helyébe az „az aktív korúak ellátására való jogosultság keretében megállapított pénzbeli ellátásban” szöveg lép.",
    none⟩])

/-- replacement_fixups.py:293-320. -/
def saved36 : Str × List Replacement := (py"2011. évi XXIX. törvény", [
  ⟨py"vonható vissza.”",
    py"vonható vissza.",
    none⟩,
  ⟨py"alkalmazni.”",
    py"alkalmazni.",
    some [py"biztosítása érdekében – a 102/A. § (3) bekezdés a) pontját és a 102/B. § (1) és (2) bekezdését kell megfelelően"]⟩,
  ⟨py"alkalmazható.”",
    py"alkalmazható.",
    some [py"megfelel az e §-ban foglaltaknak, a Hivatal határozatának jogerőre emelkedését követően a 102. §–102/E. § nem"]⟩,
  ⟨py"(5) bekezdése, 178. § (7) bekezdése, 181. § (3) és (4) bekezdése, 183. §-a.”",
    py"(5) bekezdése, 178. § (7) bekezdése, 181. § (3) és (4) bekezdése, 183. §-a.",
    none⟩,
  ⟨py"í) dönt a szállítási rendszerüzemeltető és a vertikálisan integrált földgázipari vállalkozás, valamint a 119/A. §",
    py"„í) dönt a szállítási rendszerüzemeltető és a vertikálisan integrált földgázipari vállalkozás, valamint a 119/A. §",
    none⟩])

/-- replacement_fixups.py:321-326. -/
def saved37 : Str × List Replacement := (py"2012. évi CCIX. törvény", [
  ⟨py"(11) Az Ogytv. 29. § (9) bekezdésében a „48. § (3)–(5)” szövegrész helyébe a „48. § (3)–(7)” szöveg lép”",
    py"(11) Az Ogytv. 29. § (9) bekezdésében a „48. § (3)–(5)” szövegrész helyébe a „48. § (3)–(7)” szöveg lép",
    none⟩])

/-- replacement_fixups.py:327-339. -/
def saved38 : Str × List Replacement := (py"2012. évi CCVIII. törvény", [
  ⟨py"szöveg lép.”",
    py"szöveg lép.",
    some [py"CXXVIII. törvény 17/A. § (1) bekezdésében a „18. § (7) bekezdése” szövegrész helyébe a „18. § (6) bekezdés b)–c) pontja”"]⟩,
  ⟨py"szöveg lép.”",
    py"szöveg lép.",
    none⟩])

/-- replacement_fixups.py:340-345. -/
def saved39 : Str × List Replacement := (py"2012. évi CCX. törvény", [
  ⟨py",,(5) A 2. § (2) bekezdése és az 5. § (2) bekezdése szerint megkötött megállapodások, továbbá az 5. § (5) bekezdése",
    py"„(5) A 2. § (2) bekezdése és az 5. § (2) bekezdése szerint megkötött megállapodások, továbbá az 5. § (5) bekezdése",
    none⟩])

/-- replacement_fixups.py:346-355. -/
def saved40 : Str × List Replacement := (py"2012. évi CCXII. törvény", [
  ⟨py"szolgáltatásra jogosult személyt\" szöveg,",
    py"szolgáltatásra jogosult személyt” szöveg,",
    none⟩,
  ⟨py"5/A. § (1) Az 5. § (1) bekezdésben meghatározott szerződéseknek az 5. § (1) bekezdés alapján történő felmondása",
    py"„5/A. § (1) Az 5. § (1) bekezdésben meghatározott szerződéseknek az 5. § (1) bekezdés alapján történő felmondása",
    none⟩])

/-- replacement_fixups.py:356-381. -/
def saved41 : Str × List Replacement := (py"2012. évi CIV. törvény", [
  ⟨py"a) 7. § (4) bekezdésében a „jogszerűségét igazolni” szövegrész helyébe a jogszerűségéről nyilatkozni” szöveg,",
    py"a) 7. § (4) bekezdésében a „jogszerűségét igazolni” szövegrész helyébe a „jogszerűségéről nyilatkozni” szöveg,",
    none⟩,
  ⟨py"d) 27. § (4) bekezdés b) pont bd) alpontjában a „nevét (cégét), lakóhelyét (székhelyét) „ szövegrész helyébe a „nevét,",
    py"d) 27. § (4) bekezdés b) pont bd) alpontjában a „nevét (cégét), lakóhelyét (székhelyét) ” szövegrész helyébe a „nevét,",
    none⟩,
  ⟨py"tartalmazzák megfelelően a 44. §-ban foglalt adatközléshez szükséges adatokat „ szöveg,",
    py"tartalmazzák megfelelően a 44. §-ban foglalt adatközléshez szükséges adatokat ” szöveg,",
    none⟩,
  ⟨py"f) 39. § (1) bekezdésében a „(3) bekezdésének” szövegrész helyébe a „(2) bekezdésének „ szöveg,",
    py"f) 39. § (1) bekezdésében a „(3) bekezdésének” szövegrész helyébe a „(2) bekezdésének ” szöveg,",
    none⟩,
  ⟨py"befolyással” szöveg helyébe a „legalább többségi befolyással „ szöveg,",
    py"befolyással” szöveg helyébe a „legalább többségi befolyással ” szöveg,",
    none⟩,
  ⟨py"c) a Ctv. 53. § (1) bekezdésében a „ha a változás a cég tevékenységi körét érinti, illetve „ szövegrész,",
    py"c) a Ctv. 53. § (1) bekezdésében a „ha a változás a cég tevékenységi körét érinti, illetve ” szövegrész,",
    none⟩])

/-- replacement_fixups.py:382-387. -/
def saved42 : Str × List Replacement := (py"2012. évi CLII. törvény", [
  ⟨py"pénzügyi beszámolót, valamint teljesítményértékelést készít.\"",
    py"pénzügyi beszámolót, valamint teljesítményértékelést készít.”",
    none⟩])

/-- replacement_fixups.py:388-405. -/
def saved43 : Str × List Replacement := (py"2012. évi CLIV. törvény", [
  ⟨py"fenntartói jogok gyakorlására rendeletben kijelölt szervezet” szöveg, az „államháztartási törvényben\" szövegrész",
    py"fenntartói jogok gyakorlására rendeletben kijelölt szervezet” szöveg, az „államháztartási törvényben” szövegrész",
    none⟩,
  ⟨py"c) 40/A. § (1) bekezdésében a „termékenként\" szövegrész helyébe a „készítményenként\" szöveg,",
    py"c) 40/A. § (1) bekezdésében a „termékenként\" szövegrész helyébe a „készítményenként” szöveg,",
    none⟩,
  ⟨py"támogatásból le kell vonni a „36. § (1)–(2) és (4)–(4a), illetve 40/A. § (1) bekezdésében meghatározott fizetési",
    py"támogatásból le kell vonni a 36. § (1)–(2) és (4)–(4a), illetve 40/A. § (1) bekezdésében meghatározott fizetési",
    none⟩,
  ⟨py"c) 40/A. § (1) bekezdésében a „termékenként\" szövegrész helyébe a „készítményenként” szöveg,",
    py"c) 40/A. § (1) bekezdésében a „termékenként” szövegrész helyébe a „készítményenként” szöveg,",
    none⟩])

/-- replacement_fixups.py:406-411. -/
def saved44 : Str × List Replacement := (py"2012. évi CLVII. törvény", [
  ⟨py"a beruházó a feltárási engedély iránti kérelméhez csatolja a szerződést.\" szöveg,",
    py"a beruházó a feltárási engedély iránti kérelméhez csatolja a szerződést.” szöveg,",
    none⟩])

/-- replacement_fixups.py:412-417. -/
def saved45 : Str × List Replacement := (py"2012. évi CLXX. törvény", [
  ⟨py"hatóság megnevezéséről és címéről, valamint a jogorvoslat lehetőségéről vagy annak hiányáról.“",
    py"hatóság megnevezéséről és címéről, valamint a jogorvoslat lehetőségéről vagy annak hiányáról.”",
    none⟩])

/-- replacement_fixups.py:418-447. -/
def saved46 : Str × List Replacement := (py"2012. évi CLXXVIII. törvény", [
  ⟨py",,c) a 124. § (1) bekezdésének c) pontjában és (4) bekezdésében említett esetekben igazoltan egészben vagy túlnyomó",
    py"„c) a 124. § (1) bekezdésének c) pontjában és (4) bekezdésében említett esetekben igazoltan egészben vagy túlnyomó",
    none⟩,
  ⟨py"a személygépkocsi osztály-jelzése: ”6”. Ha a személygépkocsi osztályjelzése a KöHÉM rendelet 2012. augusztus 15-ét",
    py"a személygépkocsi osztály-jelzése: „6”. Ha a személygépkocsi osztályjelzése a KöHÉM rendelet 2012. augusztus 15-ét",
    none⟩,
  ⟨py"17. tartozás: a magyar állami adó-, illetve vámhatóságnál – engedély nélkül – az előírt vagy a fizetési felszólításban",
    py"„17. tartozás: a magyar állami adó-, illetve vámhatóságnál – engedély nélkül – az előírt vagy a fizetési felszólításban",
    none⟩,
  ⟨py"benyújtásával egyidejűleg nem fizeti meg az eljárási illetéket” szöveg;”",
    py"benyújtásával egyidejűleg nem fizeti meg az eljárási illetéket” szöveg;",
    none⟩,
  ⟨py"eljárás igazgatási szolgáltatási díja esetén az 5 000 forintot.” szöveg;”",
    py"eljárás igazgatási szolgáltatási díja esetén az 5 000 forintot.” szöveg;",
    none⟩,
  ⟨py"15. 43/A. § b) pontjában az „éves szinten összesítve” és az „a tárgyévet követő augusztus 31-éig” szövegrész,”",
    py"15. 43/A. § b) pontjában az „éves szinten összesítve” és az „a tárgyévet követő augusztus 31-éig” szövegrész,",
    none⟩,
  ⟨py"b) 19. § (10) bekezdésében az „akkreditált” szövegrész.”",
    py"b) 19. § (10) bekezdésében az „akkreditált” szövegrész.",
    none⟩])

/-- replacement_fixups.py:448-453. -/
def saved47 : Str × List Replacement := (py"2012. évi CXC. törvény", [
  ⟨py"„l) a közszolgáltatást ellátó szakmunkás szakmai továbbképzésére vonatkozó szabályokat.\"",
    py"„l) a közszolgáltatást ellátó szakmunkás szakmai továbbképzésére vonatkozó szabályokat.”",
    none⟩])

/-- replacement_fixups.py:454-459. -/
def saved48 : Str × List Replacement := (py"2012. évi CXCI. törvény", [
  ⟨py"hatályos anyagi jogi rendelkezések alkalmazandók.\"",
    py"hatályos anyagi jogi rendelkezések alkalmazandók.”",
    none⟩])

/-- replacement_fixups.py:460-465. -/
def saved49 : Str × List Replacement := (py"2012. évi CXCVI. törvény", [
  ⟨py"20. 78. § (4) bekezdés d) pontjában a „megfizetésének” szövegrész helyébe a megfizetésének, és” szöveg,",
    py"20. 78. § (4) bekezdés d) pontjában a „megfizetésének” szövegrész helyébe a „megfizetésének, és” szöveg,",
    none⟩])

/-- replacement_fixups.py:466-471. -/
def saved50 : Str × List Replacement := (py"2012. évi CXIX. törvény", [
  ⟨py"a 10 000 forintot;” szövegrész helyébe „a köztartozás összege eléri vagy meghaladja a 10 000 forintot;” szöveg lép.”",
    py"a 10 000 forintot;” szövegrész helyébe „a köztartozás összege eléri vagy meghaladja a 10 000 forintot;” szöveg lép.",
    none⟩])

/-- replacement_fixups.py:472-477. -/
def saved51 : Str × List Replacement := (py"2012. évi CXVII. törvény", [
  ⟨py",,(3) Az, akinek bírói szolgálati jogviszonya a Bjt. 90. § ha) pontja szerinti rá irányadó öregségi nyugdíjkorhatár betöltése",
    py"„(3) Az, akinek bírói szolgálati jogviszonya a Bjt. 90. § ha) pontja szerinti rá irányadó öregségi nyugdíjkorhatár betöltése",
    none⟩])

/-- replacement_fixups.py:478-483. -/
def saved52 : Str × List Replacement := (py"2012. évi CXXII. törvény", [
  ⟨py"(a továbbiakban mint ”Szerződő Felek”, és külön mint „Szerződő Fél”);",
    py"(a továbbiakban mint „Szerződő Felek”, és külön mint „Szerződő Fél”);",
    none⟩])

/-- replacement_fixups.py:484-489. -/
def saved53 : Str × List Replacement := (py"2012. évi LXI. törvény", [
  ⟨py"„ , illetőleg” szövegrész helyébe az „és a” szöveg, a „Magyar Országos Levéltárnak” szövegrész helyébe a ”Magyar",
    py"„ , illetőleg” szövegrész helyébe az „és a” szöveg, a „Magyar Országos Levéltárnak” szövegrész helyébe a „Magyar",
    none⟩])

/-- replacement_fixups.py:490-495. -/
def saved54 : Str × List Replacement := (py"2012. évi LXXIV. törvény", [
  ⟨py"„5. § (1) A géntechnológiai hatóság az engedély iránti kérelmet a géntechnológiai testület véleményére figyelemmel",
    py"5. § (1) A géntechnológiai hatóság az engedély iránti kérelmet a géntechnológiai testület véleményére figyelemmel",
    none⟩])

/-- replacement_fixups.py:496-505. -/
def saved55 : Str × List Replacement := (py"2012. évi LXXVI. törvény", [
  ⟨py",,(9) Az ingatlan-nyilvántartásról szóló 1997. évi CXLI. törvény módosításáról szóló 2005. évi CXXII. törvény erejénél",
    py"„(9) Az ingatlan-nyilvántartásról szóló 1997. évi CXLI. törvény módosításáról szóló 2005. évi CXXII. törvény erejénél",
    none⟩,
  ⟨py",,(3) A (2) bekezdés alapján tulajdonba adott ingatlanokon fennálló elidegenítési és terhelési tilalmat az ingatlan",
    py"„(3) A (2) bekezdés alapján tulajdonba adott ingatlanokon fennálló elidegenítési és terhelési tilalmat az ingatlan",
    none⟩])

/-- replacement_fixups.py:506-511. -/
def saved56 : Str × List Replacement := (py"2012. évi LXXXIV. törvény", [
  ⟨py"szolgáltatás,’’",
    py"szolgáltatás,”",
    none⟩])

/-- replacement_fixups.py:512-517. -/
def saved57 : Str × List Replacement := (py"2012. évi V. törvény", [
  ⟨py"XXIII. törvény 30/A. § (2) bekezdése” szövegrész helyébe a közszolgálati tisztviselőkről szóló törvény” szöveg lép.",
    py"XXIII. törvény 30/A. § (2) bekezdése” szövegrész helyébe „a közszolgálati tisztviselőkről szóló törvény” szöveg lép.",
    none⟩])

/-- replacement_fixups.py:518-523. -/
def saved58 : Str × List Replacement := (py"2012. évi XCII. törvény", [
  ⟨py"g) “Processing of personal data” (hereafter referred to as ”processing”) shall mean any operation or set of operations",
    py"g) “Processing of personal data” (hereafter referred to as “processing”) shall mean any operation or set of operations",
    none⟩])

/-- replacement_fixups.py:524-549. -/
def saved59 : Str × List Replacement := (py"2012. évi XCIII. törvény", [
  ⟨py"d) a 12/G. § (2) bekezdésében a „talajvédelmi szempontokra és” szövegrész helyébe a művelhetőségi, és",
    py"d) a 12/G. § (2) bekezdésében a „talajvédelmi szempontokra és” szövegrész helyébe a „művelhetőségi, és",
    none⟩,
  ⟨py"I. törvény 81. § (1) bekezdésében az „okmányiroda” szövegrész helyébe a ”fővárosi és megyei kormányhivatal járási",
    py"I. törvény 81. § (1) bekezdésében az „okmányiroda” szövegrész helyébe a „fővárosi és megyei kormányhivatal járási",
    none⟩,
  ⟨py"járási (fővárosi kerületi) hivatala\" szöveg lép.",
    py"járási (fővárosi kerületi) hivatala” szöveg lép.",
    none⟩,
  ⟨py"megyei kormányhivatal járási (fővárosi kerületi) hivatalának (a továbbiakban: járási hivatal) szöveg,",
    py"megyei kormányhivatal járási (fővárosi kerületi) hivatalának (a továbbiakban: járási hivatal)” szöveg,",
    none⟩,
  ⟨py"b) 91. § (1) bekezdéséből „– a jegyző 90/A. §-on alapuló határozatának kivételével –\" szövegrész.",
    py"b) 91. § (1) bekezdéséből „– a jegyző 90/A. §-on alapuló határozatának kivételével –” szövegrész.",
    none⟩,
  ⟨py"hivatal) szöveg, az 55. § (6) bekezdésében és 60. § (2) bekezdésében a „jegyző” szövegrész helyébe a „járási hivatal”",
    py"hivatal)” szöveg, az 55. § (6) bekezdésében és 60. § (2) bekezdésében a „jegyző” szövegrész helyébe a „járási hivatal”",
    none⟩])

/-- replacement_fixups.py:550-555. -/
def saved60 : Str × List Replacement := (py"2012. évi XVII. törvény", [
  ⟨py"helyébe a „szervek” szöveg”, 84. § (3) bekezdésében az „irányító szerv által választott” szövegrész helyébe az „irányító",
    py"helyébe a „szervek” szöveg, 84. § (3) bekezdésében az „irányító szerv által választott” szövegrész helyébe az „irányító",
    none⟩])

/-- replacement_fixups.py:556-561. -/
def saved61 : Str × List Replacement := (py"2013. évi CC. törvény", [
  ⟨py"tartalmazza az összeférhetetlenség megszüntetésére vonatkozó felszólítást is.”",
    py"tartalmazza az összeférhetetlenség megszüntetésére vonatkozó felszólítást is.",
    none⟩])

/-- replacement_fixups.py:562-579. -/
def saved62 : Str × List Replacement := (py"2013. évi CCL. törvény", [
  ⟨py",,(7) A közigazgatási hatósági eljárás és szolgáltatás általános szabályairól szóló törvény hatósági bizonyítvány",
    py"„(7) A közigazgatási hatósági eljárás és szolgáltatás általános szabályairól szóló törvény hatósági bizonyítvány",
    none⟩,
  ⟨py"n) 75. § (4) bekezdésében az ,,a (2)–(3) bekezdések szerint” szövegrész helyébe az ,,a (2)–(2a) bekezdés szerint”",
    py"n) 75. § (4) bekezdésében az „a (2)–(3) bekezdések szerint” szövegrész helyébe az „a (2)–(2a) bekezdés szerint”",
    none⟩,
  ⟨py"e) 38. § (1) bekezdés a) pontjában a „feladatait és hatáskörét” szövegrész helyébe a feladatait, hatáskörét és",
    py"e) 38. § (1) bekezdés a) pontjában a „feladatait és hatáskörét” szövegrész helyébe a „feladatait, hatáskörét és",
    none⟩,
  ⟨py"(2) A Hktv. 40. § (4) bekezdésében a ,,térítésmentesen” szövegrész helyébe a ,,térítésmentesen, valamint az elektronikus",
    py"(2) A Hktv. 40. § (4) bekezdésében a „térítésmentesen” szövegrész helyébe a „térítésmentesen, valamint az elektronikus",
    none⟩])

/-- replacement_fixups.py:580-597. -/
def saved63 : Str × List Replacement := (py"2013. évi CCLII. törvény", [
  ⟨py"(4) A 6:198. § (3) bekezdése a következő szöveggel lép hatályba:",
    py"(4) A Ptk. 6:198. § (3) bekezdése a következő szöveggel lép hatályba:",
    none⟩,
  ⟨py",,(1) Az egyesület jogutód nélküli megszűnése esetén a hitelezők követeléseinek kiegyenlítése után fennmaradó",
    py"„(1) Az egyesület jogutód nélküli megszűnése esetén a hitelezők követeléseinek kiegyenlítése után fennmaradó",
    none⟩,
  ⟨py",,(3) A nyilvántartó bíróság jogszabályban meghatározott szervezetnek juttatja a vagyont, ha az alapító okirat, vagy",
    py"„(3) A nyilvántartó bíróság jogszabályban meghatározott szervezetnek juttatja a vagyont, ha az alapító okirat, vagy",
    none⟩,
  ⟨py"az „a szülő” szövegrész helyett az „az a szülő, akinek szülői felügyeleti joga szünetel,” az „az átmeneti",
    py"az „a szülő” szövegrész helyett az „az a szülő, akinek szülői felügyeleti joga szünetel,” szöveggel, az „az átmeneti",
    none⟩])

/-- replacement_fixups.py:598-603. -/
def saved64 : Str × List Replacement := (py"2013. évi CCXLIII. törvény", [
  ⟨py"p) 3. melléklet 4. sorában a „kollégiumvezető-helyettese” szövegrész helyébe a kollégiumvezető-helyettese és",
    py"p) 3. melléklet 4. sorában a „kollégiumvezető-helyettese” szövegrész helyébe a „kollégiumvezető-helyettese és",
    none⟩])

/-- replacement_fixups.py:604-777. -/
def saved65 : Str × List Replacement := (py"2013. évi CCXLVIII. törvény", [
  ⟨py"1.1. ”AIP” or Aeronautical Information Publication means the collection and dissemination of all",
    py"1.1. “AIP” or Aeronautical Information Publication means the collection and dissemination of all",
    none⟩,
  ⟨py"1.2. ”ANS” or Air Navigation Services for the purpose of this Agreement includes Air Traffic Management",
    py"1.2. “ANS” or Air Navigation Services for the purpose of this Agreement includes Air Traffic Management",
    none⟩,
  ⟨py"1.3. ”ANSP” or Air Navigation Service Provider means any public or private entity providing air navigation",
    py"1.3. “ANSP” or Air Navigation Service Provider means any public or private entity providing air navigation",
    none⟩,
  ⟨py"1.4. ”Appropriate NATO CAOC” means the competent NATO Combined Air Operations Centre.",
    py"1.4. “Appropriate NATO CAOC” means the competent NATO Combined Air Operations Centre.",
    none⟩,
  ⟨py"1.5. ”Assignment” means the preparatory works and service provision carried out on the basis of this",
    py"1.5. “Assignment” means the preparatory works and service provision carried out on the basis of this",
    none⟩,
  ⟨py"1.6. ”ATM” means ATS, Airspace Management and Air Traffic Flow Management.",
    py"1.6. “ATM” means ATS, Airspace Management and Air Traffic Flow Management.",
    none⟩,
  ⟨py"1.7. ”ATS” means area control service flight information service and alerting service.",
    py"1.7. “ATS” means area control service flight information service and alerting service.",
    none⟩,
  ⟨py"1.8. ”Designated Airspace” shall have the meaning attributed thereto under Article 3.",
    py"1.8. “Designated Airspace” shall have the meaning attributed thereto under Article 3.",
    none⟩,
  ⟨py"1.9. ”FIR” stands for Flight Information Region which is an airspace of defined dimensions within which",
    py"1.9. “FIR” stands for Flight Information Region which is an airspace of defined dimensions within which",
    none⟩,
  ⟨py"1.10. ”GAT” or General Air Traffic means flights conducted in accordance with the rules and provisions of",
    py"1.10. “GAT” or General Air Traffic means flights conducted in accordance with the rules and provisions of",
    none⟩,
  ⟨py"1.11. ”ICAO Class C Airspace” means aircraft operations may be conducted under Instrument Flight Rules",
    py"1.11. “ICAO Class C Airspace” means aircraft operations may be conducted under Instrument Flight Rules",
    none⟩,
  ⟨py"1.12. ”NSA” stands for National Supervisory Authority. For the purpose of this Agreement, NSA means the",
    py"1.12. “NSA” stands for National Supervisory Authority. For the purpose of this Agreement, NSA means the",
    none⟩,
  ⟨py"1.13. ”OAT” or Operational Air Traffic means flights which do not comply with the provisions stated for",
    py"1.13. “OAT” or Operational Air Traffic means flights which do not comply with the provisions stated for",
    none⟩,
  ⟨py"1.14. ”Safety investigation” means a process conducted by a safety investigation authority for the purpose",
    py"1.14. “Safety investigation” means a process conducted by a safety investigation authority for the purpose",
    none⟩,
  ⟨py"1.15. ”SPINS” stands for Special Instructions is the Unclassified Special Instructions or specific information,",
    py"1.15. “SPINS” stands for Special Instructions is the Unclassified Special Instructions or specific information,",
    none⟩,
  ⟨py"1.16. ”State flights” are flights engaged in missions undertaken by government, military, customs and",
    py"1.16. “State flights” are flights engaged in missions undertaken by government, military, customs and",
    none⟩,
  ⟨py"1.17. ”TRA” stands for Temporary Restricted Area and refers to an airspace of defined dimensions in",
    py"1.17. “TRA” stands for Temporary Restricted Area and refers to an airspace of defined dimensions in",
    none⟩,
  ⟨py"1.18. ”SIA” stands for Safety Investigation Authority. For the purpose of this Agreement, the SIA means the",
    py"1.18. “SIA” stands for Safety Investigation Authority. For the purpose of this Agreement, the SIA means the",
    none⟩,
  ⟨py"1.19. ”UAV/RPA” stands for Unmanned Aerial Vehicle/Remotely Piloted Aircraft.",
    py"1.19. “UAV/RPA” stands for Unmanned Aerial Vehicle/Remotely Piloted Aircraft.",
    none⟩,
  ⟨py"P2 – Intersection of SKOPJE FIR, 41 52 37N 020 35 37E ”Triple Point” – SKOPJE FIR, TIRANA",
    py"P2 – Intersection of SKOPJE FIR, 41 52 37N 020 35 37E “Triple Point” – SKOPJE FIR, TIRANA",
    none⟩,
  ⟨py"1.1. ”AIP” vagy Aeronautical Information Publication (Légiforgalmi Tájékoztató Kiadvány) jelenti az összes",
    py"1.1. “AIP” vagy Aeronautical Information Publication (Légiforgalmi Tájékoztató Kiadvány) jelenti az összes",
    none⟩,
  ⟨py"1.2. ”ANS” vagy Air Navigation Services (Léginavigációs Szolgálatok) jelen Megállapodás céljaira magában",
    py"1.2. “ANS” vagy Air Navigation Services (Léginavigációs Szolgálatok) jelen Megállapodás céljaira magában",
    none⟩,
  ⟨py"1.3. ”ANSP” vagy Air Navigation Service Provider (Léginavigációs Szolgáltató) jelenti az általános légiforgalom",
    py"1.3. “ANSP” vagy Air Navigation Service Provider (Léginavigációs Szolgáltató) jelenti az általános légiforgalom",
    none⟩,
  ⟨py"1.4. ”A megfelelő NATO CAOC” jelentése az illetékes NATO Egyesített Légi Műveleti Központ Combined Air",
    py"1.4. “A megfelelő NATO CAOC” jelentése az illetékes NATO Egyesített Légi Műveleti Központ Combined Air",
    none⟩,
  ⟨py"1.5. ”Megbízatás” jelenti a jelen Megállapodás alapján végrehajtott előkészítő tevékenység és a szolgálatok",
    py"1.5. “Megbízatás” jelenti a jelen Megállapodás alapján végrehajtott előkészítő tevékenység és a szolgálatok",
    none⟩,
  ⟨py"1.6. ”ATM” jelentése: ATS, Légtérgazdálkodás és Légiforgalmi Áramlásszervezés (Airspace Management és Air",
    py"1.6. “ATM” jelentése: ATS, Légtérgazdálkodás és Légiforgalmi Áramlásszervezés (Airspace Management és Air",
    none⟩,
  ⟨py"1.7. ”ATS” jelenti a Körzeti Irányító Szolgálatot, a Repüléstájékoztató szolgálatot és a riasztószolgálatot.",
    py"1.7. “ATS” jelenti a Körzeti Irányító Szolgálatot, a Repüléstájékoztató szolgálatot és a riasztószolgálatot.",
    none⟩,
  ⟨py"1.8. A ”Kijelölt Légtér” jelentése a 3. cikkben meghatározott jelentés.",
    py"1.8. A “Kijelölt Légtér” jelentése a 3. cikkben meghatározott jelentés.",
    none⟩,
  ⟨py"1.9. ”FIR” jelentése a Repüléstájékoztató Körzet (Flight Information Region - FIR), meghatározott kiterjedésű",
    py"1.9. “FIR” jelentése a Repüléstájékoztató Körzet (Flight Information Region - FIR), meghatározott kiterjedésű",
    none⟩,
  ⟨py"1.10. ”GAT” vagy General Air Traffic (Általános Légiforgalom) jelenti az ICAO szabályainak és rendelkezéseink",
    py"1.10. “GAT” vagy General Air Traffic (Általános Légiforgalom) jelenti az ICAO szabályainak és rendelkezéseink",
    none⟩,
  ⟨py"1.11. ”ICAO Class C Airspace” (ICAO C osztályú légtér) jelenti, hogy légijármű üzemeltetés végezhető a Műszer",
    py"1.11. “ICAO Class C Airspace” (ICAO C osztályú légtér) jelenti, hogy légijármű üzemeltetés végezhető a Műszer",
    none⟩,
  ⟨py"1.12. ”NSA” jelentése a Nemzeti Felügyeleti Hatóság (National Supervisory Authority). Jelen Megállapodás",
    py"1.12. “NSA” jelentése a Nemzeti Felügyeleti Hatóság (National Supervisory Authority). Jelen Megállapodás",
    none⟩,
  ⟨py"1.13. ”OAT” vagy Műveleti Légiforgalom (Operational Air Traffic) jelenti a GAT vonatkozásában meghatározott",
    py"1.13. “OAT” vagy Műveleti Légiforgalom (Operational Air Traffic) jelenti a GAT vonatkozásában meghatározott",
    none⟩,
  ⟨py"1.14. ”Eseményvizsgálat” a balesetek és repülőesemények megelőzése céljából az eseményvizsgálatokat végző",
    py"1.14. “Eseményvizsgálat” a balesetek és repülőesemények megelőzése céljából az eseményvizsgálatokat végző",
    none⟩,
  ⟨py"1.15. ”SPINS” jelenti a megfelelő NATO testületek által közzétett Speciális Utasításokat (Special Instructions),",
    py"1.15. “SPINS” jelenti a megfelelő NATO testületek által közzétett Speciális Utasításokat (Special Instructions),",
    none⟩,
  ⟨py"1.16. ”Állami repülések” (State flights) azok a műveleti repülések, amelyeket kormányzati, katonai, vámügyi és",
    py"1.16. “Állami repülések” (State flights) azok a műveleti repülések, amelyeket kormányzati, katonai, vámügyi és",
    none⟩,
  ⟨py"1.17. ”TRA” jelentése Időszakosan Korlátozott Légtér (Temporary Restricted Area), amely a kijelölt légtérben egy",
    py"1.17. “TRA” jelentése Időszakosan Korlátozott Légtér (Temporary Restricted Area), amely a kijelölt légtérben egy",
    none⟩,
  ⟨py"1.18. ”SIA” jelenti az Eseményvizsgálatokat Végző Hatóságot (Safety Investigation Authority). Jelen Megállapodás",
    py"1.18. “SIA” jelenti az Eseményvizsgálatokat Végző Hatóságot (Safety Investigation Authority). Jelen Megállapodás",
    none⟩,
  ⟨py"1.19. ”UAV/RPA” jelentése pilóta nélküli légijármű / távvezérelt légijármű (Unmanned Aerial Vehicle/Remotely",
    py"1.19. “UAV/RPA” jelentése pilóta nélküli légijármű / távvezérelt légijármű (Unmanned Aerial Vehicle/Remotely",
    none⟩,
  ⟨py"P2 – SKOPJE FIR, TIRANA FIR & 41 52 37N 020 35 37E „Hármas pont“ – SKOPJE FIR, TIRANA",
    py"P2 – SKOPJE FIR, TIRANA FIR & 41 52 37N 020 35 37E „Hármas pont” – SKOPJE FIR, TIRANA",
    none⟩,
  ⟨py"1 A „Közigazgatási határvonal” a Nemzetközi Biztonsági Erő ( „KFOR“) és a Jugoszláv Szövetségi Köztársaság, illetve a Szerb Köztársaság kormányai",
    py"1 A „Közigazgatási határvonal” a Nemzetközi Biztonsági Erő ( „KFOR”) és a Jugoszláv Szövetségi Köztársaság, illetve a Szerb Köztársaság kormányai",
    none⟩,
  ⟨py"„Költségalap“) hoz létre, amely tartalmazza a léginavigációs szolgálatokkal kapcsolatban felmerülő összes",
    py"„Költségalap”) hoz létre, amely tartalmazza a léginavigációs szolgálatokkal kapcsolatban felmerülő összes",
    none⟩,
  ⟨py"megkezdését megelőzően – az ANSP-nek külön dokumentumot ( „Alapelvek“) kell kiadnia, amelyben",
    py"megkezdését megelőzően – az ANSP-nek külön dokumentumot ( „Alapelvek”) kell kiadnia, amelyben",
    none⟩])

/-- replacement_fixups.py:778-783. -/
def saved66 : Str × List Replacement := (py"2013. évi CCXVIII. törvény", [
  ⟨py"eb) alpontjában, valamint f) pont fb) és fc) alpontjában”, a „valamint e) pont ec) és ed) alpontjában szövegrész",
    py"eb) alpontjában, valamint f) pont fb) és fc) alpontjában”, a „valamint e) pont ec) és ed) alpontjában” szövegrész",
    none⟩])

/-- replacement_fixups.py:784-789. -/
def saved67 : Str × List Replacement := (py"2013. évi CCXXXI. törvény", [
  ⟨py"a már csökkentett összeget tartalmazza” szöveg lép.”",
    py"a már csökkentett összeget tartalmazza” szöveg lép.",
    none⟩])

/-- replacement_fixups.py:790-799. -/
def saved68 : Str × List Replacement := (py"2013. évi CCXXXVI. törvény", [
  ⟨py"által alkalmazott módszerről,”",
    py"által alkalmazott módszerről,",
    none⟩,
  ⟨py"183/A. § (1) Az MNB a 33. § (1) bekezdésének megfelelően – a (2), a (3) vagy a (4) bekezdésben foglalt eltéréssel –",
    py"„183/A. § (1) Az MNB a 33. § (1) bekezdésének megfelelően – a (2), a (3) vagy a (4) bekezdésben foglalt eltéréssel –",
    none⟩])

/-- replacement_fixups.py:800-809. -/
def saved69 : Str × List Replacement := (py"2013. évi CLII. törvény", [
  ⟨py"”I have the honour to refer to paragraph 2 of Article 7 of the Agreement between Japan and Hungary on Social",
    py"“I have the honour to refer to paragraph 2 of Article 7 of the Agreement between Japan and Hungary on Social",
    none⟩,
  ⟨py"”I have the honour to refer to the Agreement between Japan and Hungary on Social Security which was signed",
    py"“I have the honour to refer to the Agreement between Japan and Hungary on Social Security which was signed",
    none⟩])

/-- replacement_fixups.py:810-895. -/
def saved70 : Str × List Replacement := (py"2013. évi CLXIII. törvény", [
  ⟨py"(hereinafter referred to as „Hungarian tax“);",
    py"(hereinafter referred to as „Hungarian tax”);",
    none⟩,
  ⟨py"(hereinafter referred to as „Swiss tax“).",
    py"(hereinafter referred to as „Swiss tax”).",
    none⟩,
  ⟨py"a) (i) the term „Hungary“ means the territory of Hungary as defined by its laws in accordance with",
    py"a) (i) the term „Hungary” means the territory of Hungary as defined by its laws in accordance with",
    none⟩,
  ⟨py"(ii) the term „Switzerland“ means the territory of the Swiss Confederation as defined by its laws in",
    py"(ii) the term „Switzerland” means the territory of the Swiss Confederation as defined by its laws in",
    none⟩,
  ⟨py"b) the term „person“ includes an individual, a company and any other body of persons;",
    py"b) the term „person” includes an individual, a company and any other body of persons;",
    none⟩,
  ⟨py"c) the term „company“ means any body corporate or any entity which is treated as a body corporate for tax",
    py"c) the term „company” means any body corporate or any entity which is treated as a body corporate for tax",
    none⟩,
  ⟨py"d) the terms „enterprise of a Contracting State“ and „enterprise of the other Contracting State“ mean",
    py"d) the terms „enterprise of a Contracting State” and „enterprise of the other Contracting State” mean",
    none⟩,
  ⟨py"e) the term „international traffic“ means any transport by a ship or aircraft operated by an enterprise that has",
    py"e) the term „international traffic” means any transport by a ship or aircraft operated by an enterprise that has",
    none⟩,
  ⟨py"f) the term „competent authority“ means:",
    py"f) the term „competent authority” means:",
    none⟩,
  ⟨py"g) the term „national“ in relation to a Contracting State means:",
    py"g) the term „national” in relation to a Contracting State means:",
    none⟩,
  ⟨py"1. For the purposes of this Convention, the term „resident of a Contracting State“ means any person who, under",
    py"1. For the purposes of this Convention, the term „resident of a Contracting State” means any person who, under",
    none⟩,
  ⟨py"1. For the purposes of this Convention, the term „permanent establishment“ means a fixed place of business through",
    py"1. For the purposes of this Convention, the term „permanent establishment” means a fixed place of business through",
    none⟩,
  ⟨py"2. The term „permanent establishment“ includes especially:",
    py"2. The term „permanent establishment” includes especially:",
    none⟩,
  ⟨py"4. Notwithstanding the preceding provisions of this Article, the term „permanent establishment“ shall be deemed not",
    py"4. Notwithstanding the preceding provisions of this Article, the term „permanent establishment” shall be deemed not",
    none⟩,
  ⟨py"2. The term „immovable property“ shall have the meaning which it has under the law of the Contracting State in which",
    py"2. The term „immovable property” shall have the meaning which it has under the law of the Contracting State in which",
    none⟩,
  ⟨py"5. The term „dividends“ as used in this Article means income from shares, „jouissance“ shares or „jouissance“ rights,",
    py"5. The term „dividends” as used in this Article means income from shares, „jouissance” shares or „jouissance” rights,",
    none⟩,
  ⟨py"2. The term „interest“ as used in this Article means income from debt-claims of every kind, whether or not secured by",
    py"2. The term „interest” as used in this Article means income from debt-claims of every kind, whether or not secured by",
    none⟩,
  ⟨py"2. The term „royalties“ as used in this Article means payments of any kind received as a consideration for the use of,",
    py"2. The term „royalties” as used in this Article means payments of any kind received as a consideration for the use of,",
    none⟩,
  ⟨py"2. The term „professional services“ includes especially independent scientific, literary, artistic, educational or teaching",
    py"2. The term „professional services” includes especially independent scientific, literary, artistic, educational or teaching",
    none⟩,
  ⟨py"It is understood that the term „pensions“ as used in Article 18 does not only cover periodic payments, but also",
    py"It is understood that the term „pensions” as used in Article 18 does not only cover periodic payments, but also",
    none⟩,
  ⟨py"In case of Switzerland, the term „pensions“ also includes payments from individual recognized pension schemes",
    py"In case of Switzerland, the term „pensions” also includes payments from individual recognized pension schemes",
    none⟩])

/-- replacement_fixups.py:896-905. -/
def saved71 : Str × List Replacement := (py"2013. évi CLXXXVI. törvény", [
  ⟨py"o) 85. § (4) és (5) bekezdésében a tagállamának” szövegrész helyébe a „tagállam”,",
    py"o) 85. § (4) és (5) bekezdésében a „tagállamának” szövegrész helyébe a „tagállam”,",
    none⟩,
  ⟨py"p) 85. § (7) bekezdésében a tagállamával” szövegrész helyébe a „tagállammal”",
    py"p) 85. § (7) bekezdésében a „tagállamával” szövegrész helyébe a „tagállammal”",
    none⟩])

/-- replacement_fixups.py:906-911. -/
def saved72 : Str × List Replacement := (py"2013. évi CXCVIII. törvény", [
  ⟨py"b) 54. § (1) bekezdésében az „– a kérelem írásban történő visszavonásától eltérő okból –” szövegrész.”",
    py"b) 54. § (1) bekezdésében az „– a kérelem írásban történő visszavonásától eltérő okból –” szövegrész.",
    none⟩])

/-- replacement_fixups.py:912-917. -/
def saved73 : Str × List Replacement := (py"2013. évi CXLIII. törvény", [
  ⟨py"a) 3. § (6) bekezdésében a „Pénzügyi Szervezetek Állami Felügyelete (a továbbiakban: Felügyelet) szövegrész",
    py"a) 3. § (6) bekezdésében a „Pénzügyi Szervezetek Állami Felügyelete (a továbbiakban: Felügyelet)” szövegrész",
    none⟩])

/-- replacement_fixups.py:918-923. -/
def saved74 : Str × List Replacement := (py"2013. évi CXXV. törvény", [
  ⟨py"ajánlatot vagy nyújthatnak be részvételi jelentkezést.’’",
    py"ajánlatot vagy nyújthatnak be részvételi jelentkezést.”",
    none⟩])

/-- replacement_fixups.py:924-972. -/
def saved75 : Str × List Replacement := (py"2013. évi CXXXV. törvény", [
  ⟨py"41. § A polgári törvénykönyvről szóló 2013. évi V. tv. a 3:297. §-a a következő szöveggel lép hatályba:",
    py"41. § A polgári törvénykönyvről szóló 2013. évi V. tv. 3:297. §-a a következő szöveggel lép hatályba:",
    none⟩,
  ⟨py"„Az átváltozó kötvény",
    py"„3:240/A. § [Az átváltozó kötvény]",
    some [py"kiegészülve lép hatályba:"]⟩,
  ⟨py"3:240/A. § (1) A részvénytársaság alaptőkéjének feléig forgalomba hozhat olyan névre szóló kötvényt, amely egy",
    py"(1) A részvénytársaság alaptőkéjének feléig forgalomba hozhat olyan névre szóló kötvényt, amely egy",
    none⟩,
  ⟨py"„Elsőbbségi jog gyakorlása",
    py"„3:297. § Elsőbbségi jog gyakorlása",
    none⟩,
  ⟨py"„3:297. § Elsőbbségi jog gyakorlása",
    py"„3:297. § [Elsőbbségi jog gyakorlása]",
    none⟩,
  ⟨py"„5. Alaptőke-emelés átváltoztatható kötvények részvénnyé alakításával,",
    py"„",
    none⟩,
  ⟨py"ill. átváltozó kötvények részvénnyé alakulásával",
    py"",
    none⟩,
  ⟨py"3:303. § [Feltételes alaptőke-emelés]",
    py"",
    none⟩,
  ⟨py"„",
    py"",
    none⟩,
  ⟨py"(1) A részvénytársaság feltételes alaptőke-emelést határozhat el átváltoztatható, ill. átváltozó kötvények forgalomba",
    py"„(1) A részvénytársaság feltételes alaptőke-emelést határozhat el átváltoztatható, ill. átváltozó kötvények forgalomba",
    none⟩,
  ⟨py"42. § A polgári törvénykönyvről szóló 2013. évi V. tv. 3:303. § (1)–(3) bekezdése a következő szöveggel lép hatályba:",
    py"42. § A polgári törvénykönyvről szóló 2013. évi V. tv. 3:303. § (1)–(5) bekezdése a következő szöveggel lép hatályba:",
    none⟩])

/-- replacement_fixups.py:973-978. -/
def saved76 : Str × List Replacement := (py"2013. évi LII. törvény", [
  ⟨py"(3) E törvény 2013. július 2-án hatályát veszti.”",
    py"(3) E törvény 2013. július 2-án hatályát veszti.",
    none⟩])

/-- replacement_fixups.py:979-984. -/
def saved77 : Str × List Replacement := (py"2013. évi LXXII. törvény", [
  ⟨py"szöveg lép.”",
    py"szöveg lép.",
    none⟩])

/-- replacement_fixups.py:985-990. -/
def saved78 : Str × List Replacement := (py"2013. évi LXXX. törvény", [
  ⟨py"„ 7/A. § (1) Az állam tulajdonában álló nemzeti vagyon tekintetében tulajdonosi joggyakorló kizárólag",
    py"„7/A. § (1) Az állam tulajdonában álló nemzeti vagyon tekintetében tulajdonosi joggyakorló kizárólag",
    none⟩])

/-- replacement_fixups.py:991-996. -/
def saved79 : Str × List Replacement := (py"2013. évi LXXXVII. törvény", [
  ⟨py"évi LXXXVII. törvénnyel megállapított rendelkezéseit 2014. január 1-jétől kell alkalmazni.",
    py"évi LXXXVII. törvénnyel megállapított rendelkezéseit 2014. január 1-jétől kell alkalmazni.”",
    none⟩])

/-- replacement_fixups.py:997-1002. -/
def saved80 : Str × List Replacement := (py"2013. évi VII. törvény", [
  ⟨py"„KORLÁTOZOTT TERJESZTÉSŰ!“ DIFFUSION RESTREINTE",
    py"„KORLÁTOZOTT TERJESZTÉSŰ!” DIFFUSION RESTREINTE",
    none⟩])

/-- replacement_fixups.py:1003-1012. -/
def saved81 : Str × List Replacement := (py"2013. évi XLI. törvény", [
  ⟨py"Foglalkoztatási Alap negyedévente megtéríti az Egészségbiztosítási Alap részére.”",
    py"Foglalkoztatási Alap negyedévente megtéríti az Egészségbiztosítási Alap részére.",
    none⟩,
  ⟨py"b) 39. § (2) bekezdésében az „s)–v) pontja szövegrész helyébe az „s)–w) pontja” szöveg,",
    py"b) 39. § (2) bekezdésében az „s)–v) pontja” szövegrész helyébe az „s)–w) pontja” szöveg,",
    none⟩])

/-- replacement_fixups.py:1013-1180. -/
def saved82 : Str × List Replacement := (py"2013. évi XLII. törvény", [
  ⟨py"„When there is not enougn space in the manifest to enter all the goods carried,\"",
    py"„When there is not enougn space in the manifest to enter all the goods carried,”",
    none⟩,
  ⟨py"Replace twice in the second sentence the words”TIR operation” by „TIR transport”.",
    py"Replace twice in the second sentence the words „TIR operation” by „TIR transport”.",
    none⟩,
  ⟨py"rögzítve a (9) bekezdésben említett kábellel vagy kötéllel.” “",
    py"rögzítve a (9) bekezdésben említett kábellel vagy kötéllel.” ”",
    none⟩,
  ⟨py"TIR operation and/or transmission of the claim for payment to the TIR Carnet holder.“",
    py"TIR operation and/or transmission of the claim for payment to the TIR Carnet holder.”",
    none⟩,
  ⟨py"“1. cikk (b) pont” szavakat váltsa fel az “1. cikk (f) pont.",
    py"“1. cikk (b) pont” szavakat váltsa fel az “1. cikk (f) pont”.",
    none⟩,
  ⟨py"“1. cikk (e), (i) pont” szavakat váltsa fel az “1. cikk (j), (i) pont.",
    py"“1. cikk (e), (i) pont” szavakat váltsa fel az “1. cikk (j), (i) pont”.",
    none⟩,
  ⟨py"”42b. cikk",
    py"„42b. cikk",
    none⟩,
  ⟨py"\"1 ANNEX 1",
    py"„1 ANNEX 1",
    none⟩,
  ⟨py"recognizable form and all other provisions of Rule 10 (c) are complied with.\"",
    py"recognizable form and all other provisions of Rule 10 (c) are complied with.”",
    none⟩,
  ⟨py"load compartments.\"",
    py"load compartments.”",
    none⟩,
  ⟨py"\"2.3.11 (a)-3”.",
    py"„2.3.11 (a)-3”.",
    none⟩,
  ⟨py"biztosított dohány, illetve alkohol kategóriájáról.",
    py"biztosított dohány, illetve alkohol kategóriájáról.”",
    none⟩,
  ⟨py"részében.",
    py"részében.”",
    none⟩,
  ⟨py",,8.13.1–1. Finanszírozási rendelkezések",
    py"„8.13.1–1. Finanszírozási rendelkezések",
    none⟩,
  ⟨py",,9. I. 1. a) Elismerten működő egyesület",
    py"„9. I. 1. a) Elismerten működő egyesület",
    none⟩,
  ⟨py",,9. II. 3. Engedélyező bizottság",
    py"„9. II. 3. Engedélyező bizottság",
    none⟩,
  ⟨py",,Nem kötelező a zárólap a csúszóponyvás járművek esetén sem.”",
    py"„Nem kötelező a zárólap a csúszóponyvás járművek esetén sem.”",
    none⟩,
  ⟨py",, Nem kötelező a zárólap a csúszóponyvás járművek esetében sem.” ”",
    py"„ Nem kötelező a zárólap a csúszóponyvás járművek esetében sem.” ”",
    none⟩,
  ⟨py"„b) a ,,TIR-művelet'' kifejezés a TIR-fuvarozásnak azt a részét jelenti, amely egy Szerződő Fél",
    py"„b) a „TIR-művelet'' kifejezés a TIR-fuvarozásnak azt a részét jelenti, amely egy Szerződő Fél",
    none⟩,
  ⟨py"c) a ,,TIR-művelet kezdete'' kifejezés azt jelenti, hogy a közúti járművet, járműszerelvényt vagy",
    py"c) a „TIR-művelet kezdete'' kifejezés azt jelenti, hogy a közúti járművet, járműszerelvényt vagy",
    none⟩,
  ⟨py"d) a ,,TIR-művelet befejezése'' kifejezés azt jelenti, hogy a közúti járművet, járműszerelvényt",
    py"d) a „TIR-művelet befejezése'' kifejezés azt jelenti, hogy a közúti járművet, járműszerelvényt",
    none⟩,
  ⟨py"e) a ,,TIR-művelet mentesítése'' kifejezés azt jelenti, hogy a vámhatóságok elfogadták, hogy a",
    py"e) a „TIR-művelet mentesítése'' kifejezés azt jelenti, hogy a vámhatóságok elfogadták, hogy a",
    none⟩,
  ⟨py"„k) az ,,indulási vámhivatal'' kifejezés valamely Szerződő Fél bármelyik olyan vámhivatalát",
    py"„k) az „indulási vámhivatal'' kifejezés valamely Szerződő Fél bármelyik olyan vámhivatalát",
    none⟩,
  ⟨py"l) a ,,rendeltetési vámhivatal'' kifejezés valamely Szerződő Fél bármelyik olyan vámhivatalát",
    py"l) a „rendeltetési vámhivatal'' kifejezés valamely Szerződő Fél bármelyik olyan vámhivatalát",
    none⟩,
  ⟨py"m) az ,,átmenő vámhivatal'' kifejezés valamely Szerződő Fél bármelyik olyan vámhivatalát",
    py"m) az „átmenő vámhivatal'' kifejezés valamely Szerződő Fél bármelyik olyan vámhivatalát",
    none⟩,
  ⟨py"„o) a TIR-igazolvány ,,birtokosa'' kifejezés azt a személyt jelenti, aki számára a TIR-igazolványt",
    py"„o) a TIR-igazolvány „birtokosa'' kifejezés azt a személyt jelenti, aki számára a TIR-igazolványt",
    none⟩,
  ⟨py"Példa a csúszóponyvás jármű szerkezetére",
    py"Példa a csúszóponyvás jármű szerkezetére”",
    some [py"“ 9. számú vázlat"]⟩,
  ⟨py"Példa a csúszóponyvás jármű szerkezetére",
    py"Példa a csúszóponyvás jármű szerkezetére”",
    some [py"“9. számú vázlat"]⟩,
  ⟨py"„b) a „TIR-művelet'' kifejezés a TIR-fuvarozásnak azt a részét jelenti, amely egy Szerződő Fél",
    py"„b) a „TIR-művelet” kifejezés a TIR-fuvarozásnak azt a részét jelenti, amely egy Szerződő Fél",
    none⟩,
  ⟨py"c) a „TIR-művelet kezdete'' kifejezés azt jelenti, hogy a közúti járművet, járműszerelvényt vagy",
    py"c) a „TIR-művelet kezdete” kifejezés azt jelenti, hogy a közúti járművet, járműszerelvényt vagy",
    none⟩,
  ⟨py"d) a „TIR-művelet befejezése'' kifejezés azt jelenti, hogy a közúti járművet, járműszerelvényt",
    py"d) a „TIR-művelet befejezése” kifejezés azt jelenti, hogy a közúti járművet, járműszerelvényt",
    none⟩,
  ⟨py"e) a „TIR-művelet mentesítése'' kifejezés azt jelenti, hogy a vámhatóságok elfogadták, hogy a",
    py"e) a „TIR-művelet mentesítése” kifejezés azt jelenti, hogy a vámhatóságok elfogadták, hogy a",
    none⟩,
  ⟨py"„k) az „indulási vámhivatal'' kifejezés valamely Szerződő Fél bármelyik olyan vámhivatalát",
    py"„k) az „indulási vámhivatal” kifejezés valamely Szerződő Fél bármelyik olyan vámhivatalát",
    none⟩,
  ⟨py"l) a „rendeltetési vámhivatal'' kifejezés valamely Szerződő Fél bármelyik olyan vámhivatalát",
    py"l) a „rendeltetési vámhivatal” kifejezés valamely Szerződő Fél bármelyik olyan vámhivatalát",
    none⟩,
  ⟨py"m) az „átmenő vámhivatal'' kifejezés valamely Szerződő Fél bármelyik olyan vámhivatalát",
    py"m) az „átmenő vámhivatal” kifejezés valamely Szerződő Fél bármelyik olyan vámhivatalát",
    none⟩,
  ⟨py"ventilation aperture.''",
    py"ventilation aperture.\"",
    none⟩,
  ⟨py"„o) a TIR-igazolvány „birtokosa'' kifejezés azt a személyt jelenti, aki számára a TIR-igazolványt",
    py"„o) a TIR-igazolvány „birtokosa” kifejezés azt a személyt jelenti, aki számára a TIR-igazolványt",
    none⟩,
  ⟨py"above-mentioned international organization.”",
    py"above-mentioned international organization.””",
    none⟩,
  ⟨py"A bekezdésben kerüljön törlésre a minimum szó az „A“ szó után.",
    py"A bekezdésben kerüljön törlésre a minimum szó az „A” szó után.",
    none⟩,
  ⟨py"helyen.”",
    py"helyen.””",
    none⟩])

/-- replacement_fixups.py:1181-1186. -/
def saved83 : Str × List Replacement := (py"2013. évi XX. törvény", [
  ⟨py",,(4) A 3. § (4) bekezdése szerinti esetben az OBH elnöke a kinevezésre vonatkozó javaslatának felterjesztése előtt",
    py"„(4) A 3. § (4) bekezdése szerinti esetben az OBH elnöke a kinevezésre vonatkozó javaslatának felterjesztése előtt",
    none⟩])

/-- replacement_fixups.py:1187-1192. -/
def saved84 : Str × List Replacement := (py"2013. évi XXI. törvény", [
  ⟨py"helyébe a „miniszter” szöveg lép.”",
    py"helyébe a „miniszter” szöveg lép.",
    none⟩])

/-- replacement_fixups.py:1193-1198. -/
def saved85 : Str × List Replacement := (py"2014. évi CVI. törvény", [
  ⟨py"a „letett” szöveg”,",
    py"a „letett” szöveg,",
    none⟩])

/-- replacement_fixups.py:1199-1228. -/
def saved86 : Str × List Replacement := (py"2014. évi LIII. törvény", [
  ⟨py"”the Parties”) have approved an Arrangement on the operation of a Working Holiday Scheme (hereinafter referred",
    py"“the Parties”) have approved an Arrangement on the operation of a Working Holiday Scheme (hereinafter referred",
    none⟩,
  ⟨py"to as ”the Scheme”) between the Parties. The purpose of the Scheme is to enhance cultural and people-to-people",
    py"to as “the Scheme”) between the Parties. The purpose of the Scheme is to enhance cultural and people-to-people",
    none⟩,
  ⟨py"(a) ”Taiwan” means the territory in respect of which the immigration laws administered by the Ministry of the",
    py"(a) “Taiwan” means the territory in respect of which the immigration laws administered by the Ministry of the",
    none⟩,
  ⟨py"(b) ”Hungary” means the territory in respect of which Hungarian immigration laws are applied at the date of the",
    py"(b) “Hungary” means the territory in respect of which Hungarian immigration laws are applied at the date of the",
    none⟩,
  ⟨py"a ”working holiday visa”), valid for a period of twelve (12) months from the date of issue, to any person who satisfies",
    py"a “working holiday visa”), valid for a period of twelve (12) months from the date of issue, to any person who satisfies",
    none⟩,
  ⟨py"A tajpeji Magyar Kereskedelmi Iroda és a Magyarországi Tajpej Képviseleti Iroda (a továbbiakban: ,,Szerződő",
    py"A tajpeji Magyar Kereskedelmi Iroda és a Magyarországi Tajpej Képviseleti Iroda (a továbbiakban: „Szerződő",
    none⟩,
  ⟨py"Felek”) az ideiglenesen munkát vállaló turisták programjáról szóló Megállapodás (a továbbiakban: ,,Program”)",
    py"Felek”) az ideiglenesen munkát vállaló turisták programjáról szóló Megállapodás (a továbbiakban: „Program”)",
    none⟩])

/-- replacement_fixups.py:1229-1234. -/
def saved87 : Str × List Replacement := (py"2014. évi LVII. törvény", [
  ⟨py"„",
    py"”",
    none⟩])

/-- replacement_fixups.py:1235-1244. -/
def saved88 : Str × List Replacement := (py"2014. évi LXII. törvény", [
  ⟨py"(2) ,,A helyi önkormányzatok általános működésének és ágazati feladatainak támogatása” cím előirányzatait és",
    py"(2) „A helyi önkormányzatok általános működésének és ágazati feladatainak támogatása” cím előirányzatait és",
    none⟩,
  ⟨py",,a helyi önkormányzatok általános működésének és ágazati feladatainak támogatása” címen megillető, és a részükre",
    py"„a helyi önkormányzatok általános működésének és ágazati feladatainak támogatása” címen megillető, és a részükre",
    none⟩])

/-- replacement_fixups.py:1245-1254. -/
def saved89 : Str × List Replacement := (py"2014. évi LXV. törvény", [
  ⟨py"(2) A Btk. 28. § (la) bekezdése helyébe a következő rendelkezés lép:",
    py"(2) A Btk. 28. § (1a) bekezdése helyébe a következő rendelkezés lép:",
    none⟩,
  ⟨py"„(la) Ha az erős felindulásban elkövetett emberölés, a háromévi szabadságvesztésnél súlyosabban büntetendő",
    py"„(1a) Ha az erős felindulásban elkövetett emberölés, a háromévi szabadságvesztésnél súlyosabban büntetendő",
    none⟩])

/-- replacement_fixups.py:1255-1264. -/
def saved90 : Str × List Replacement := (py"2014. évi LXXII. törvény", [
  ⟨py"az elkövetővel szemben életfogytig tartó szabadságvesztést kell kiszabni. Halmazati büntetés esetén a 81. §",
    py"az elkövetővel szemben életfogytig tartó szabadságvesztést kell kiszabni. Halmazati büntetés esetén a 81. § (3)",
    none⟩,
  ⟨py"(3) bekezdése szerinti büntetési tételt, tárgyalásról lemondás esetén a 83. § (2) bekezdése szerinti büntetési tételt",
    py"bekezdése szerinti büntetési tételt, tárgyalásról lemondás esetén a 83. § (2) bekezdése szerinti büntetési tételt",
    none⟩])

/-- replacement_fixups.py:1265-1270. -/
def saved91 : Str × List Replacement := (py"2014. évi LXXIV. törvény", [
  ⟨py"a „2013. január 1-jétől” szövegrész helyébe a „2013. július 1-jétől” szöveg, a 2015. január 1-jével” szövegrész",
    py"a „2013. január 1-jétől” szövegrész helyébe a „2013. július 1-jétől” szöveg, a „2015. január 1-jével” szövegrész",
    none⟩])

/-- replacement_fixups.py:1271-1276. -/
def saved92 : Str × List Replacement := (py"2014. évi VI. törvény", [
  ⟨py"ОРГАНИЗАЦИИ КОСМИЧЕСКОЙ СВЯЗИ ”ИНТЕРСПУТНИК”",
    py"ОРГАНИЗАЦИИ КОСМИЧЕСКОЙ СВЯЗИ “ИНТЕРСПУТНИК”",
    none⟩])

/-- replacement_fixups.py:1277-1282. -/
def saved93 : Str × List Replacement := (py"2014. évi XCIII. törvény", [
  ⟨py"d) „133. § (2) bekezdésében az „a helyi önkormányzat működésére” szövegrész helyébe az „az érintett",
    py"d) 133. § (2) bekezdésében az „a helyi önkormányzat működésére” szövegrész helyébe az „az érintett",
    none⟩])

/-- replacement_fixups.py:1283-1288. -/
def saved94 : Str × List Replacement := (py"2014. évi XI. törvény", [
  ⟨py"meg.”” szövegrész helyébe az „* A rezsicsökkentés a fogyasztókat a 2012. április 14. napján alkalmazott díj",
    py"meg.” szövegrész helyébe az „* A rezsicsökkentés a fogyasztókat a 2012. április 14. napján alkalmazott díj",
    none⟩])

/-- replacement_fixups.py:1289-1338. -/
def saved95 : Str × List Replacement := (py"2014. évi XLIV. törvény", [
  ⟨py"a) ”Aeronautical Authority” means in the case of the Government of the United Arab Emirates (UAE), the",
    py"a) “Aeronautical Authority” means in the case of the Government of the United Arab Emirates (UAE), the",
    none⟩,
  ⟨py"b) ”Agreed Services” means scheduled international air services which can be operated for the transport",
    py"b) “Agreed Services” means scheduled international air services which can be operated for the transport",
    none⟩,
  ⟨py"c) ”Agreement” means this Agreement, its Annexes and any amendments thereto;",
    py"c) “Agreement” means this Agreement, its Annexes and any amendments thereto;",
    none⟩,
  ⟨py"d) ”Convention” means the Convention on International Civil Aviation, opened for signature at Chicago on",
    py"d) “Convention” means the Convention on International Civil Aviation, opened for signature at Chicago on",
    none⟩,
  ⟨py"e) ”Air Service”, “Airline”, ”International Air Service” and ”stop for non traffic purposes” have the meanings",
    py"e) “Air Service”, “Airline”, ”International Air Service” and ”stop for non traffic purposes” have the meanings",
    none⟩,
  ⟨py"f) ”Annexes” shall include provisions annexed to the Agreement such as the Route Schedule, the List of",
    py"f) “Annexes” shall include provisions annexed to the Agreement such as the Route Schedule, the List of",
    none⟩,
  ⟨py"g) ”Designated Airlines” means an airline or airlines that have been designated and authorized in accordance",
    py"g) “Designated Airlines” means an airline or airlines that have been designated and authorized in accordance",
    none⟩,
  ⟨py"i) ”Territory” in relation to a State has the meaning assigned to it in Article 2 of the Convention;",
    py"i) “Territory” in relation to a State has the meaning assigned to it in Article 2 of the Convention;",
    none⟩,
  ⟨py"l) References in this Agreement to the ”EU Treaties” shall be understood as referring to the Treaty on European",
    py"l) References in this Agreement to the “EU Treaties” shall be understood as referring to the Treaty on European",
    none⟩,
  ⟨py"called ”ramp inspection”), provided this does not lead to unreasonable delay.",
    py"called “ramp inspection”), provided this does not lead to unreasonable delay.",
    none⟩,
  ⟨py"e) “Air Service”, “Airline”, ”International Air Service” and ”stop for non traffic purposes” have the meanings",
    py"e) “Air Service”, “Airline”, “International Air Service” and “stop for non traffic purposes” have the meanings",
    none⟩,
  ⟨py"légitársaságai üzemeltetik.",
    py"légitársaságai üzemeltetik.”",
    none⟩])

/-- replacement_fixups.py:1339-1344. -/
def saved96 : Str × List Replacement := (py"2014. évi XLIX. törvény", [
  ⟨py"(a) in Bahrain, to income tax payable under Amiri Decree No. 22/1979 (hereinafter referred to as ”Bahrain Tax”);",
    py"(a) in Bahrain, to income tax payable under Amiri Decree No. 22/1979 (hereinafter referred to as “Bahrain Tax”);",
    none⟩])

/-- replacement_fixups.py:1345-1350. -/
def saved97 : Str × List Replacement := (py"2014. évi XXXIX. törvény", [
  ⟨py",,(4) Az ajánlat az egyetemes szolgáltatásra jogosult azon felhasználók ellátásához szükséges földgázmennyiség",
    py"„(4) Az ajánlat az egyetemes szolgáltatásra jogosult azon felhasználók ellátásához szükséges földgázmennyiség",
    none⟩])

/-- replacement_fixups.py:1351-1356. -/
def saved98 : Str × List Replacement := (py"2015. évi CI. törvény", [
  ⟨py"rendelkezések lépnek és a bekezdés a következő 4a. ponttal egészül ki:",
    py"rendelkezések lépnek:",
    none⟩])

/-- replacement_fixups.py:1357-1366. -/
def saved99 : Str × List Replacement := (py"2015. évi CIV. törvény", [
  ⟨py"„Felhatalmazás",
    py"Felhatalmazás",
    none⟩,
  ⟨py"28. § Felhatalmazást kap a Kormány, hogy e törvény alapján",
    py"„28. § Felhatalmazást kap a Kormány, hogy e törvény alapján",
    none⟩])

/-- replacement_fixups.py:1367-1372. -/
def saved100 : Str × List Replacement := (py"2015. évi CXL. törvény", [
  ⟨py"31. § A Btk. a következő 352/A–C. §-sal és az azokat megelőző alcímekkel egészül ki:",
    py"31. § A Btk. a következő 352/A–352/C. §-sal és az azokat megelőző alcímekkel egészül ki:",
    none⟩])

/-- replacement_fixups.py:1373-1437. -/
def saved101 : Str × List Replacement := (py"2015. évi LXX. törvény", [
  ⟨py"„Felek“)",
    py"„Felek”)",
    none⟩,
  ⟨py"elősegítéséről szóló, Mátraházán, 2012. október 11-én kelt Megállapodás (a továbbiakban: „CBE-megállapodás“)",
    py"elősegítéséről szóló, Mátraházán, 2012. október 11-én kelt Megállapodás (a továbbiakban: „CBE-megállapodás”)",
    none⟩,
  ⟨py"válasz“",
    py"válasz”",
    some [py"FÜGGELÉKEK: a jelen ATIA 4. Cikke alapján felhasznált személyes adatok", py"", py"A Függelék: Az ATIA 4. Cikk (1) bekezdése alapján használt személyes adatok", py"„A gépjárművezető személyazonosságának megállapítására irányuló megkeresés és az arra adott"]⟩,
  ⟨py"„Személy címének megállapítására irányuló megkeresés és az arra adott válasz“",
    py"„Személy címének megállapítására irányuló megkeresés és az arra adott válasz”",
    some [py"válasz”", py"", py"B Függelék: Az ATIA 4. Cikk (2) bekezdése alapján használt személyes adatok"]⟩,
  ⟨py"„Iratok megküldésére és kézbesítésére irányuló megkeresés és az arra adott válasz“",
    py"„Iratok megküldésére és kézbesítésére irányuló megkeresés és az arra adott válasz”",
    some [py"„Személy címének megállapítására irányuló megkeresés és az arra adott válasz”", py"C Függelék: Az ATIA 4. Cikk (3) bekezdése alapján használt személyes adatok"]⟩,
  ⟨py"válasz“",
    py"válasz”",
    some [py"„Iratok megküldésére és kézbesítésére irányuló megkeresés és az arra adott válasz”", py"D Függelék: Az ATIA 4. Cikk (4) bekezdése alapján használt személyes adatok", py"„Határozatok határon átnyúló végrehajtására kézbesítésére irányuló megkeresés és az arra adott"]⟩,
  ⟨py"válasz“",
    py"válasz”",
    some [py"„A gépjárművezető személyazonosságának megállapítására irányuló megkeresés és az arra adott"]⟩,
  ⟨py"„Személy címének megállapítására irányuló megkeresés és az arra adott válasz“",
    py"„Személy címének megállapítására irányuló megkeresés és az arra adott válasz”",
    none⟩,
  ⟨py"„Iratok megküldésére és kézbesítésére irányuló megkeresés és az arra adott válasz“",
    py"„Iratok megküldésére és kézbesítésére irányuló megkeresés és az arra adott válasz”",
    none⟩,
  ⟨py"válasz“",
    py"válasz”",
    none⟩])

/-- replacement_fixups.py:1438-1443. -/
def saved102 : Str × List Replacement := (py"2015. évi LXXVI. törvény", [
  ⟨py"„187/B. (1) A bv. intézet az előterjesztés vagy a kérelem véleményezésének megalapozása érdekében megkeresi",
    py"„187/B. § (1) A bv. intézet az előterjesztés vagy a kérelem véleményezésének megalapozása érdekében megkeresi",
    none⟩])

/-- replacement_fixups.py:1444-1449. -/
def saved103 : Str × List Replacement := (py"2015. évi LXXX. törvény", [
  ⟨py"„(1) A MÁÉRT-en részt vevő külhoni szervezet vagy szervezetek a saját országuk vonatkozásában külhoni nemzetrész",
    py"„5. § (1) A MÁÉRT-en részt vevő külhoni szervezet vagy szervezetek a saját országuk vonatkozásában külhoni nemzetrész",
    none⟩])

/-- replacement_fixups.py:1450-1455. -/
def saved104 : Str × List Replacement := (py"2015. évi XI. törvény", [
  ⟨py"rendelkezései alapján nem él keresettel, az általános szabályok szerint pert indíthat a személyiségi jog védelme iránt.",
    py"rendelkezései alapján nem él keresettel, az általános szabályok szerint pert indíthat a személyiségi jog védelme iránt.”",
    none⟩])

/-- replacement_fixups.py:1456-1517. -/
def saved105 : Str × List Replacement := (py"2015. évi XLI. törvény", [
  ⟨py"referred to as the ”Contracting Parties”),",
    py"referred to as the “Contracting Parties”),",
    none⟩,
  ⟨py"Investment Bank (hereinafter the ”Agreement”), and Articles 29 and 30 of the Charter of the International",
    py"Investment Bank (hereinafter the “Agreement”), and Articles 29 and 30 of the Charter of the International",
    none⟩,
  ⟨py"Investment Bank (hereinafter the ”Charter”), have agreed to amend the Agreement and the Charter as follows:",
    py"Investment Bank (hereinafter the “Charter”), have agreed to amend the Agreement and the Charter as follows:",
    none⟩,
  ⟨py"Agreement Establishing the International Investment Bank (hereinafter the ”Restated Agreement”), together",
    py"Agreement Establishing the International Investment Bank (hereinafter the “Restated Agreement”), together",
    none⟩,
  ⟨py"Protocol and the Restated Agreement (hereinafter the ”Depositary”).",
    py"Protocol and the Restated Agreement (hereinafter the “Depositary”).",
    none⟩,
  ⟨py"Contracting Party has provided the Depositary with its instruments (hereinafter the ”Instrument”) of ratification,",
    py"Contracting Party has provided the Depositary with its instruments (hereinafter the “Instrument”) of ratification,",
    none⟩,
  ⟨py"The International Investment Bank (hereinafter the ”Bank”) is established.",
    py"The International Investment Bank (hereinafter the “Bank”) is established.",
    none⟩,
  ⟨py"3. Clause 1 of this Article, excluding sub-clauses ”a” and ”d”, shall not apply to relationships between a member",
    py"3. Clause 1 of this Article, excluding sub-clauses “a” and “d”, shall not apply to relationships between a member",
    none⟩,
  ⟨py"The members of the International Investment Bank (hereinafter the ”Bank”) are the contracting parties to the",
    py"The members of the International Investment Bank (hereinafter the “Bank”) are the contracting parties to the",
    none⟩,
  ⟨py"Agreement Establishing the Bank (hereinafter the ”Agreement”).",
    py"Agreement Establishing the Bank (hereinafter the “Agreement”).",
    none⟩,
  ⟨py"The Bank’s full name in Russian shall be ”МЕЖДУНАРОДНЫЙ ИНВЕСТИЦИОННЫЙ БАНК”;",
    py"The Bank’s full name in Russian shall be “МЕЖДУНАРОДНЫЙ ИНВЕСТИЦИОННЫЙ БАНК”;",
    none⟩,
  ⟨py"The Bank’s full name in English shall be ”INTERNATIONAL INVESTMENT BANK”;",
    py"The Bank’s full name in English shall be “INTERNATIONAL INVESTMENT BANK”;",
    none⟩,
  ⟨py"The Bank’s abbreviated name in Russian shall be ”МИБ”;",
    py"The Bank’s abbreviated name in Russian shall be “МИБ”;",
    none⟩,
  ⟨py"The Bank’s abbreviated name in English shall be ”IIB”.",
    py"The Bank’s abbreviated name in English shall be “IIB”.",
    none⟩,
  ⟨py"(hereinafter a ”Withdrawing Member”) no less than six months before the proposed withdrawal date. The Bank",
    py"(hereinafter a “Withdrawing Member”) no less than six months before the proposed withdrawal date. The Bank",
    none⟩])

/-- replacement_fixups.py:1518-1523. -/
def saved106 : Str × List Replacement := (py"2015. évi XX. törvény", [
  ⟨py"6) the terms “air service”, ”international air service”, ”airline” and “stop for non-traffic purposes” have the meanings",
    py"6) the terms “air service”, “international air service”, “airline” and “stop for non-traffic purposes” have the meanings",
    none⟩])

/-- replacement_fixups.py:1524-1549. -/
def saved107 : Str × List Replacement := (py"2015. évi XXIV. törvény", [
  ⟨py"Владата на Унгарија и Владата на Република Македонија (во натамошниот текст наречени „Страни“),",
    py"Владата на Унгарија и Владата на Република Македонија (во натамошниот текст наречени „Страни”),",
    none⟩,
  ⟨py"б) „Нарушување на безбедноста“ е чин или пропуст којшто е спротивен на оваа спогодба или на националните",
    py"б) „Нарушување на безбедноста” е чин или пропуст којшто е спротивен на оваа спогодба или на националните",
    none⟩,
  ⟨py"в) „Потребно е да знае“ е принцип според којшто пристап до одредена класифицирана информација може да",
    py"в) „Потребно е да знае” е принцип според којшто пристап до одредена класифицирана информација може да",
    none⟩,
  ⟨py"д) „Контрактор“ е физичко или правно лице коешто поседува правна способност да склучува класифицирани",
    py"д) „Контрактор” е физичко или правно лице коешто поседува правна способност да склучува класифицирани",
    none⟩,
  ⟨py"ȝ) „Национален безбедносен орган“ е органот на соодносната страна којшто е одговорен за заштитата на",
    py"ȝ) „Национален безбедносен орган” е органот на соодносната страна којшто е одговорен за заштитата на",
    none⟩,
  ⟨py"лица според принципот „потребно е да знае“ и коишто се соодветно овластени за тоа во согласност со",
    py"лица според принципот „потребно е да знае” и коишто се соодветно овластени за тоа во согласност со",
    none⟩])

/-- replacement_fixups.py:1550-1555. -/
def saved108 : Str × List Replacement := (py"2015. évi XXVII. törvény", [
  ⟨py"szóló Megállapodás által meghatározott MLF hadműveleti elgondolás és hadműveleti képességei által",
    py"szóló Megállapodás” által meghatározott MLF hadműveleti elgondolás és hadműveleti képességei által",
    none⟩])

/-- replacement_fixups.py:1556-1569. -/
def saved109 : Str × List Replacement := (py"2016. évi CIV. törvény", [
  ⟨py"központi szerv) szövegrész helyébe a „szerv (e fejezet alkalmazásában a továbbiakban: kijelölt szerv)” szöveg,",
    py"központi szerv)” szövegrész helyébe a „szerv (e fejezet alkalmazásában a továbbiakban: kijelölt szerv)” szöveg,",
    none⟩,
  ⟨py"szövegrész helyébe az „a Kormány által kijelölt szerv (a továbbiakban: nyilvántartó szerv) szöveg,",
    py"szövegrész helyébe az „a Kormány által kijelölt szerv (a továbbiakban: nyilvántartó szerv)” szöveg,",
    none⟩,
  ⟨py"„35. ellátja a 655/2014/EU rendelet 14. cikke szerinti információs hatósági feladatokat.”",
    py"„35. ellátja a 655/2014/EU rendelet 14. cikke szerinti információs hatósági feladatokat.””",
    none⟩])

/-- replacement_fixups.py:1570-1575. -/
def saved110 : Str × List Replacement := (py"2016. évi CLXXIX. törvény", [
  ⟨py"tizenöt nappal követő időpontra hívják össze.”",
    py"tizenöt nappal követő időpontra hívják össze.",
    none⟩])

/-- replacement_fixups.py:1576-1581. -/
def saved111 : Str × List Replacement := (py"2016. évi CLXXXI. törvény", [
  ⟨py"„35/A §. Magyarország diplomáciai és konzuli képviseletének, nemzetközi szervezet mellett működő állandó",
    py"„35/A. § Magyarország diplomáciai és konzuli képviseletének, nemzetközi szervezet mellett működő állandó",
    none⟩])

/-- replacement_fixups.py:1582-1591. -/
def saved112 : Str × List Replacement := (py"2016. évi CLXXXIV. törvény", [
  ⟨py"„143. § (1) Árvák kiegészítő támogatására jogosult az állomány elhunyt tagjának – ideértve a 224. § (3) bekezdése",
    py"143. § (1) Árvák kiegészítő támogatására jogosult az állomány elhunyt tagjának – ideértve a 224. § (3) bekezdése",
    none⟩,
  ⟨py"a) az önkéntes tartalékos katona hivatásos, szerződéses, honvéd tisztjelölt vagy honvéd altiszt-jelölt szolgálati",
    py"„a) az önkéntes tartalékos katona hivatásos, szerződéses, honvéd tisztjelölt vagy honvéd altiszt-jelölt szolgálati",
    none⟩])

/-- replacement_fixups.py:1592-1597. -/
def saved113 : Str × List Replacement := (py"2016. évi CXIII. törvény", [
  ⟨py"e szakterületen kutatómunkát végez;",
    py"e szakterületen kutatómunkát végez;”",
    none⟩])

/-- replacement_fixups.py:1598-1607. -/
def saved114 : Str × List Replacement := (py"2016. évi LXXI. törvény", [
  ⟨py"Aláírásra került Brüsszelben, 2016. „ ’-án.",
    py"Aláírásra került Brüsszelben, 2016.  ’-án.",
    none⟩,
  ⟨py"Aláírásra került Brüsszelben, 2016.  ’-án.",
    py"Aláírásra került Brüsszelben, 2016.  ’-án.”",
    none⟩])

/-- replacement_fixups.py:1608-1613. -/
def saved115 : Str × List Replacement := (py"2016. évi LXXIII. törvény", [
  ⟨py"58. § (1) E törvény – a (2) bekezdésben foglal kivétellel – 2016. augusztus 1-jén lép hatályba.",
    py"58. § (1) E törvény – a (2) bekezdésben foglalt kivétellel – 2016. augusztus 1-jén lép hatályba.",
    none⟩])

/-- replacement_fixups.py:1614-1619. -/
def saved116 : Str × List Replacement := (py"2016. évi LXXVI. törvény", [
  ⟨py"Szakképzési Hídprogramot” szöveg,”",
    py"Szakképzési Hídprogramot” szöveg,",
    none⟩])

/-- replacement_fixups.py:1620-1625. -/
def saved117 : Str × List Replacement := (py"2016. évi LXXVII. törvény", [
  ⟨py"(2) A Ptk. 5:96. § (3) bekezdése helyébe következő rendelkezés lép:",
    py"(2) A Ptk. 5:96. § (3) bekezdése helyébe a következő rendelkezés lép:",
    none⟩])

/-- replacement_fixups.py:1626-1631. -/
def saved118 : Str × List Replacement := (py"2016. évi LXXX. törvény", [
  ⟨py"fenntartott köznevelési intézmény kivételével –,",
    py"fenntartott köznevelési intézmény kivételével –”,",
    none⟩])

/-- replacement_fixups.py:1632-1637. -/
def saved119 : Str × List Replacement := (py"2016. évi XIV. törvény", [
  ⟨py"Hungary Mongolia“",
    py"Hungary Mongolia”",
    none⟩])

/-- replacement_fixups.py:1638-1651. -/
def saved120 : Str × List Replacement := (py"2016. évi XLIV. törvény", [
  ⟨py"a kérelmezővel szemben lefolytatott fegyelmi eljárásokat.",
    py"a kérelmezővel szemben lefolytatott fegyelmi eljárásokat.”",
    none⟩,
  ⟨py"az Európai Könyvvizsgálat-felügyeleti Szervek Bizottságával (a továbbiakban: CEAOB).",
    py"az Európai Könyvvizsgálat-felügyeleti Szervek Bizottságával (a továbbiakban: CEAOB).”",
    none⟩,
  ⟨py"„68. § (1) Amennyiben a harmadik országbeli illetőséggel rendelkező gazdálkodó (szervezet) átruházható",
    py"68. § (1) Amennyiben a harmadik országbeli illetőséggel rendelkező gazdálkodó (szervezet) átruházható",
    none⟩])

/-- replacement_fixups.py:1652-1657. -/
def saved121 : Str × List Replacement := (py"2016. évi XXXVIII. törvény", [
  ⟨py"1. 9. § (2) bekezdésében a „7. § (5) bekezdése” szövegrész helyébe a „7. § (10)” bekezdése” szövegrész,",
    py"1. 9. § (2) bekezdésében a „7. § (5) bekezdése” szövegrész helyébe a „7. § (10) bekezdése” szövegrész,",
    none⟩])

/-- replacement_fixups.py:1658-1667. -/
def saved122 : Str × List Replacement := (py"2017. évi CLXXXII. törvény", [
  ⟨py"közhírré teszi.”",
    py"közhírré teszi.””",
    none⟩,
  ⟨py"(4) A 18/A. § (1) bekezdés a) pontjában meghatározott bírság legmagasabb összege 500 ezer forint.”",
    py"(4) A 18/A. § (1) bekezdés a) pontjában meghatározott bírság legmagasabb összege 500 ezer forint.””",
    none⟩])

/-- replacement_fixups.py:1668-1673. -/
def saved123 : Str × List Replacement := (py"2017. évi CLXXXVI. törvény", [
  ⟨py"a vezető tisztségviselő képviseleti jogot nem gyakorol, ez a tény) szöveg,",
    py"a vezető tisztségviselő képviseleti jogot nem gyakorol, ez a tény)” szöveg,",
    none⟩])

/-- replacement_fixups.py:1674-1679. -/
def saved124 : Str × List Replacement := (py"2017. évi CVII. törvény", [
  ⟨py"2. For the purpose of this Article ”claims for loss of life or personal injury to passengers of a vessel” shall mean any such",
    py"2. For the purpose of this Article “claims for loss of life or personal injury to passengers of a vessel” shall mean any such",
    none⟩])

/-- replacement_fixups.py:1680-1685. -/
def saved125 : Str × List Replacement := (py"2017. évi CX. törvény", [
  ⟨py"Cộng hòa Xã hội Chủ nghĩa Việt Nam",
    py"Cộng hòa Xã hội Chủ nghĩa Việt Nam”",
    none⟩])

/-- replacement_fixups.py:1686-1695. -/
def saved126 : Str × List Replacement := (py"2017. évi CXCIII. törvény", [
  ⟨py"„6. életkezdési letéti számla: a kiutaló által a gyermek nevén vezetett nyilvántartási számla;“",
    py"„6. életkezdési letéti számla: a kiutaló által a gyermek nevén vezetett nyilvántartási számla;”",
    none⟩,
  ⟨py"belföldi gyermek adatszolgáltatás időpontjában nyilvántartott adatai vonatkozásában is teljesíti 2018. március 31-ig.",
    py"belföldi gyermek adatszolgáltatás időpontjában nyilvántartott adatai vonatkozásában is teljesíti 2018. március 31-ig.”",
    none⟩])

/-- replacement_fixups.py:1696-1717. -/
def saved127 : Str × List Replacement := (py"2017. évi CXCVII. törvény", [
  ⟨py"89. 71/B. § (4) bekezdésében a „vagy ügyész számára” szövegrész helyébe a „vagy az ügyészség számára,",
    py"89. 71/B. § (4) bekezdésében a „vagy ügyész számára” szövegrész helyébe a „vagy az ügyészség számára” szöveg,",
    none⟩,
  ⟨py"az „az előzetesen letartóztatottat” szövegrész helyébe az „a letartóztatottat szöveg,",
    py"az „az előzetesen letartóztatottat” szövegrész helyébe az „a letartóztatottat” szöveg,",
    none⟩,
  ⟨py"„26. § (1) A körözési eljárást lefolytató szerv a büntetőeljárásról szóló 2017. évi XC. törvény (a továbbiakban: Be.)",
    py"„26. § (1) A körözési eljárást lefolytató szerv a büntetőeljárásról szóló 2017. évi XC. törvény (a továbbiakban: Be.) 268. §",
    none⟩,
  ⟨py"268. § (1) bekezdés c) és d) pontja alapján bűncselekmény elkövetésével gyanúsítható, illetve megalapozottan",
    py"(1) bekezdés c) és d) pontja alapján bűncselekmény elkövetésével gyanúsítható, illetve megalapozottan",
    none⟩,
  ⟨py"„(1) A körözési eljárást lefolytató szerv a Be. 268. § (1) bekezdés a) és b) pontja, valamint a Szabs. tv. 68. §",
    py"„29. § (1) A körözési eljárást lefolytató szerv a Be. 268. § (1) bekezdés a) és b) pontja, valamint a Szabs. tv. 68. §",
    none⟩])

/-- replacement_fixups.py:1718-1723. -/
def saved128 : Str × List Replacement := (py"2017. évi CXII. törvény", [
  ⟨py"Nr.15.2-2/7034”",
    py"Nr.15.2-2/7034",
    none⟩])

/-- replacement_fixups.py:1724-1733. -/
def saved129 : Str × List Replacement := (py"2017. évi CXIV. törvény", [
  ⟨py"For the Government of Hungary For the State of Maryland“",
    py"For the Government of Hungary For the State of Maryland”",
    none⟩,
  ⟨py"Magyarország Kormánya nevében Maryland Állam nevében“",
    py"Magyarország Kormánya nevében Maryland Állam nevében”",
    none⟩])

/-- replacement_fixups.py:1734-1739. -/
def saved130 : Str × List Replacement := (py"2017. évi CXL. törvény", [
  ⟨py"– a vámkontingensek teljes mennyiségét alkalmazzák.”",
    py"– a vámkontingensek teljes mennyiségét alkalmazzák.””",
    none⟩])

/-- replacement_fixups.py:1740-1947. -/
def saved131 : Str × List Replacement := (py"2017. évi CXLI. törvény", [
  ⟨py"lényegesen nehezebb lenne.“",
    py"lényegesen nehezebb lenne.”",
    none⟩,
  ⟨py"Ungarn und die Republik Österreich (im Folgenden: „Vertragsstaaten“),",
    py"Ungarn und die Republik Österreich (im Folgenden: „Vertragsstaaten”),",
    none⟩,
  ⟨py"der Fassung des Berichtigungsprotokolls vom 12. Juli 2005 (im Folgenden: „Vertrag“) wie folgt zu ändern:",
    py"der Fassung des Berichtigungsprotokolls vom 12. Juli 2005 (im Folgenden: „Vertrag”) wie folgt zu ändern:",
    none⟩,
  ⟨py"und Bekämpfung der grenzüberschreitenden Kriminalität“",
    py"und Bekämpfung der grenzüberschreitenden Kriminalität”",
    none⟩,
  ⟨py"(2) In der Präambel des Vertrages wird die Wortfolge „die Republik Ungarn“ durch das Wort „Ungarn“ ersetzt.",
    py"(2) In der Präambel des Vertrages wird die Wortfolge „die Republik Ungarn” durch das Wort „Ungarn” ersetzt.",
    none⟩,
  ⟨py"(3) In Artikel 25 Absatz 2 der ungarischen Sprachfassung wird die Wortfolge „A Magyar Szerződő Állam“ durch das",
    py"(3) In Artikel 25 Absatz 2 der ungarischen Sprachfassung wird die Wortfolge „A Magyar Szerződő Állam” durch das",
    none⟩,
  ⟨py"Wort „Magyarország“ ersetzt. In Artikel 25 Absatz 2 der deutschen Sprachfassung wird die Wortfolge „der Republik",
    py"Wort „Magyarország” ersetzt. In Artikel 25 Absatz 2 der deutschen Sprachfassung wird die Wortfolge „der Republik",
    none⟩,
  ⟨py"Ungarn“ durch das Wort „Ungarn“ ersetzt.",
    py"Ungarn” durch das Wort „Ungarn” ersetzt.",
    none⟩,
  ⟨py"dessen bevollmächtigte Vertreter.“",
    py"dessen bevollmächtigte Vertreter.”",
    none⟩,
  ⟨py"andere in deren Auftrag handelnde Justizbehörden.“",
    py"andere in deren Auftrag handelnde Justizbehörden.”",
    none⟩,
  ⟨py"– der Bundesminister für Inneres.“",
    py"– der Bundesminister für Inneres.”",
    none⟩,
  ⟨py"fahrplanmäßigen Haltebahnhof.“",
    py"fahrplanmäßigen Haltebahnhof.”",
    none⟩,
  ⟨py"fremdenpolizeilichen Bereich.“",
    py"fremdenpolizeilichen Bereich.”",
    none⟩,
  ⟨py"gemeinsam die Schwerpunkte und beraten und stimmen die erforderlichen Maßnahmen ab.“",
    py"gemeinsam die Schwerpunkte und beraten und stimmen die erforderlichen Maßnahmen ab.”",
    none⟩,
  ⟨py"Sicherheit.“",
    py"Sicherheit.”",
    none⟩,
  ⟨py"– der Bundesminister für Inneres / Generaldirektion für die öffentliche Sicherheit / Bundeskriminalamt.“",
    py"– der Bundesminister für Inneres / Generaldirektion für die öffentliche Sicherheit / Bundeskriminalamt.”",
    some [py"Direktion für Spezialeinheiten,"]⟩,
  ⟨py"Verhinderung oder Aufklärung der strafbaren Handlungen notwendig sind;“",
    py"Verhinderung oder Aufklärung der strafbaren Handlungen notwendig sind;”",
    none⟩,
  ⟨py"die für den anderen Vertragsstaat von Bedeutung sein könnten, mitgeteilt;“",
    py"die für den anderen Vertragsstaat von Bedeutung sein könnten, mitgeteilt;”",
    none⟩,
  ⟨py"und Aufklärung einer strafbaren Handlung erforderlich sind.“",
    py"und Aufklärung einer strafbaren Handlung erforderlich sind.”",
    none⟩,
  ⟨py"innerstaatliche Recht beider Vertragsstaaten es erlaubt,“",
    py"innerstaatliche Recht beider Vertragsstaaten es erlaubt,”",
    none⟩,
  ⟨py"geregelt.“",
    py"geregelt.”",
    none⟩,
  ⟨py"Verfügung gestellt hat.“",
    py"Verfügung gestellt hat.”",
    none⟩,
  ⟨py"Observation darf auf dem Land-, Luft- und Wasserweg durchgeführt werden.“",
    py"Observation darf auf dem Land-, Luft- und Wasserweg durchgeführt werden.”",
    none⟩,
  ⟨py"– der Bundesminister für Inneres / Generaldirektion für die öffentliche Sicherheit.“",
    py"– der Bundesminister für Inneres / Generaldirektion für die öffentliche Sicherheit.”",
    none⟩,
  ⟨py"aus einem Drittstaat erfolgen.“",
    py"aus einem Drittstaat erfolgen.”",
    none⟩,
  ⟨py"– die Landespolizeidirektion Burgenland.“",
    py"– die Landespolizeidirektion Burgenland.”",
    none⟩,
  ⟨py"Ort anhalten, sowie aus Sicherheitsgründen die Kleidung und das Gepäck dieser Person durchsuchen.“",
    py"Ort anhalten, sowie aus Sicherheitsgründen die Kleidung und das Gepäck dieser Person durchsuchen.”",
    none⟩,
  ⟨py"ohne zeitliche Begrenzung durchgeführt werden.“",
    py"ohne zeitliche Begrenzung durchgeführt werden.”",
    none⟩,
  ⟨py"– der Bundesminister für Inneres / Generaldirektion für die öffentliche Sicherheit / Bundeskriminalamt.“",
    py"– der Bundesminister für Inneres / Generaldirektion für die öffentliche Sicherheit / Bundeskriminalamt.”",
    some [py"b) auf Seiten der Republik Österreich:"]⟩,
  ⟨py"erschwert würde.“",
    py"erschwert würde.”",
    none⟩,
  ⟨py"unverzüglich zu beenden.“",
    py"unverzüglich zu beenden.”",
    none⟩,
  ⟨py"Handlungen anhängig sind, und daher eine Abstimmung der Ermittlungen erforderlich ist.“",
    py"Handlungen anhängig sind, und daher eine Abstimmung der Ermittlungen erforderlich ist.”",
    none⟩,
  ⟨py"„Die gemeinsame Ermittlungsgruppe kommt im Einzelfall aufgrund einer Vereinbarung der Behörden zustande.“",
    py"„Die gemeinsame Ermittlungsgruppe kommt im Einzelfall aufgrund einer Vereinbarung der Behörden zustande.”",
    none⟩,
  ⟨py"„f) die Rechte und Pflichten des Beamten der Behörde des anderen Vertragsstaates;“",
    py"„f) die Rechte und Pflichten des Beamten der Behörde des anderen Vertragsstaates;”",
    none⟩,
  ⟨py"an der im vorliegenden Vertrag geregelten Zusammenarbeit teilnehmen.“",
    py"an der im vorliegenden Vertrag geregelten Zusammenarbeit teilnehmen.”",
    none⟩,
  ⟨py"– der Bundesminister für Inneres / das Bundesamt zur Korruptionsprävention und Korruptionsbekämpfung.“",
    py"– der Bundesminister für Inneres / das Bundesamt zur Korruptionsprävention und Korruptionsbekämpfung.”",
    none⟩,
  ⟨py"Kontrollmaßnahmen durch.“",
    py"Kontrollmaßnahmen durch.”",
    none⟩,
  ⟨py"„Gemischter Streifendienst“",
    py"„Gemischter Streifendienst”",
    none⟩,
  ⟨py"Handlungen dürfen die Behörden der Vertragsstaaten einen gemischten Streifendienst durchführen.“",
    py"Handlungen dürfen die Behörden der Vertragsstaaten einen gemischten Streifendienst durchführen.”",
    none⟩,
  ⟨py"„sowie deren Kleidung und Gepäck aus Sicherheitsgründen zu durchsuchen.“",
    py"„sowie deren Kleidung und Gepäck aus Sicherheitsgründen zu durchsuchen.”",
    none⟩,
  ⟨py"(4) Absätze 1 bis 3 gelten entsprechend für den Schiffsverkehr.“",
    py"(4) Absätze 1 bis 3 gelten entsprechend für den Schiffsverkehr.”",
    none⟩,
  ⟨py"Vertragsstaates gestattet.“",
    py"Vertragsstaates gestattet.”",
    none⟩,
  ⟨py"Vertragsstaaten es erlaubt;“",
    py"Vertragsstaaten es erlaubt;”",
    none⟩,
  ⟨py"Datenantrages anzugeben;“",
    py"Datenantrages anzugeben;”",
    none⟩,
  ⟨py"Zweck, zugestimmt.“",
    py"Zweck, zugestimmt.”",
    none⟩,
  ⟨py"– Informationssicherheitskommission.“",
    py"– Informationssicherheitskommission.”",
    none⟩,
  ⟨py"Eisenbahn- oder Schifffahrtsunternehmens auf deren Nachfrage nachzuweisen.“",
    py"Eisenbahn- oder Schifffahrtsunternehmens auf deren Nachfrage nachzuweisen.”",
    none⟩,
  ⟨py"entrichten sind, befreit.“",
    py"entrichten sind, befreit.”",
    none⟩,
  ⟨py"beeinträchtigt und nicht den Rechtsvorschriften des Vertragsstaates, in dem der Einsatz stattfindet, widerspricht.“",
    py"beeinträchtigt und nicht den Rechtsvorschriften des Vertragsstaates, in dem der Einsatz stattfindet, widerspricht.”",
    none⟩,
  ⟨py"den Durchgangsverkehr das Recht des Durchgangsstaats Anwendung.“",
    py"den Durchgangsverkehr das Recht des Durchgangsstaats Anwendung.”",
    none⟩])

/-- replacement_fixups.py:1948-1953. -/
def saved132 : Str × List Replacement := (py"2017. évi CXLIII. törvény", [
  ⟨py"„(1) A 32/A. § (1) bekezdés alapján hozott határozat három napon belül közigazgatási perben megtámadható.",
    py"„32/B. § (1) A 32/A. § (1) bekezdés alapján hozott határozat három napon belül közigazgatási perben megtámadható.",
    none⟩])

/-- replacement_fixups.py:1954-1959. -/
def saved133 : Str × List Replacement := (py"2017. évi CXV. törvény", [
  ⟨py"”AGREEMENT BETWEEN THE GOVERNMENT OF HUNGARY AND THE GOVERNMENT OF THE REPUBLIC OF",
    py"“AGREEMENT BETWEEN THE GOVERNMENT OF HUNGARY AND THE GOVERNMENT OF THE REPUBLIC OF",
    none⟩])

/-- replacement_fixups.py:1960-1965. -/
def saved134 : Str × List Replacement := (py"2017. évi CXVI. törvény", [
  ⟨py"”AGREEMENT BETWEEN THE GOVERNMENT OF HUNGARY AND THE GOVERNMENT OF THE REPUBLIC OF",
    py"“AGREEMENT BETWEEN THE GOVERNMENT OF HUNGARY AND THE GOVERNMENT OF THE REPUBLIC OF",
    none⟩])

/-- replacement_fixups.py:1966-1971. -/
def saved135 : Str × List Replacement := (py"2017. évi CXX. törvény", [
  ⟨py"jogaira, díjazására és a mintaoltalmi igényre szöveg, a „személyhez fűződő jogaira és a szabadalmi igényre”",
    py"jogaira, díjazására és a mintaoltalmi igényre” szöveg, a „személyhez fűződő jogaira és a szabadalmi igényre”",
    none⟩])

/-- replacement_fixups.py:1972-1977. -/
def saved136 : Str × List Replacement := (py"2017. évi CXXX. törvény", [
  ⟨py"4. 34. § (2) és (4) bekezdésében a „kérelmet elutasító végzés” szövegrész helyébe a kérelmet elutasító vagy",
    py"4. 34. § (2) és (4) bekezdésében a „kérelmet elutasító végzés” szövegrész helyébe a „kérelmet elutasító vagy",
    none⟩])

/-- replacement_fixups.py:1978-1983. -/
def saved137 : Str × List Replacement := (py"2017. évi CXXXIV. törvény", [
  ⟨py"telekalakítási, illetve építési tilalmat elrendelni.”",
    py"telekalakítási, illetve építési tilalmat elrendelni.””",
    none⟩])

/-- replacement_fixups.py:1984-2087. -/
def saved138 : Str × List Replacement := (py"2017. évi L. törvény", [
  ⟨py"a) megtiltja a további foglalkoztatást, ha az alkalmazás vagy a foglalkoztatás a 3. § (1) bekezdés a) pontjának első",
    py"„a) megtiltja a további foglalkoztatást, ha az alkalmazás vagy a foglalkoztatás a 3. § (1) bekezdés a) pontjának első",
    none⟩,
  ⟨py"„53/A. § Az építésügyi és építésfelügyeleti eljárásokban az eljáró hatóság és szakhatóság az eljárást és annak eljárási",
    py"53/A. § Az építésügyi és építésfelügyeleti eljárásokban az eljáró hatóság és szakhatóság az eljárást és annak eljárási",
    none⟩,
  ⟨py"c) 28. § (1) bekezdésében a „jogerős” szövegrész helyébe a „végleges szöveg,",
    py"c) 28. § (1) bekezdésében a „jogerős” szövegrész helyébe a „végleges” szöveg,",
    none⟩,
  ⟨py"során.",
    py"során.”",
    some [py"j) hatósági bizonyítvány kiállítása"]⟩,
  ⟨py"alá vett szöveg, a „lefoglalást” szövegrész helyébe a „zár alá vételt” szöveg",
    py"alá vett” szöveg, a „lefoglalást” szövegrész helyébe a „zár alá vételt” szöveg",
    none⟩,
  ⟨py"(3) Ha harmadik személy javára a Földforgalmi törvényen, más törvényen vagy megállapodáson alapuló elővásárlási",
    py"„(3) Ha harmadik személy javára a Földforgalmi törvényen, más törvényen vagy megállapodáson alapuló elővásárlási",
    none⟩,
  ⟨py"(rendeletben határozza meg.)",
    py"(rendeletben határozza meg.)”",
    some [py"jóváhagyott információhordozók és feladathordozók tankönyvvé nyilvánításának rendjét"]⟩,
  ⟨py"p) a bizalmi felügyelet által vezetett nyilvántartás tartalmával és a bizalmi szolgáltatás nyújtásával összefüggő",
    py"„p) a bizalmi felügyelet által vezetett nyilvántartás tartalmával és a bizalmi szolgáltatás nyújtásával összefüggő",
    none⟩,
  ⟨py"a) 7. § (9) bekezdésében a „jogerős” szövegrész helyébe a „végleges, a „jogerősen alkalmazott” szövegrész",
    py"a) 7. § (9) bekezdésében a „jogerős” szövegrész helyébe a „végleges”, a „jogerősen alkalmazott” szövegrész",
    none⟩,
  ⟨py"megállapított – 182. § (1) bekezdés g) pontja.”",
    py"megállapított – 182. § (1) bekezdés g) pontja.",
    none⟩,
  ⟨py"„31. § (1) A Hatóság eljárásainak ügyintézési határideje – amennyiben e törvény eltérő szabályokat nem állapít",
    py"31. § (1) A Hatóság eljárásainak ügyintézési határideje – amennyiben e törvény eltérő szabályokat nem állapít",
    none⟩,
  ⟨py"a „jogerőre emelkedésének” szövegrész helyébe a véglegessé válásának” szöveg,",
    py"a „jogerőre emelkedésének” szövegrész helyébe a „véglegessé válásának” szöveg,",
    none⟩,
  ⟨py"„(2) Az atomenergia-felügyeleti szerv eljárásában hiánypótlásra felhívásnak több ízben helye van.",
    py"„(2) Az atomenergia-felügyeleti szerv eljárásában hiánypótlásra felhívásnak több ízben helye van.”",
    none⟩,
  ⟨py"d) a döntés szóban nem közölhető.",
    py"d) a döntés szóban nem közölhető.”",
    none⟩,
  ⟨py"xi) a radioaktív anyagok birtoklása, előállítása, termelése, kezelése, feldolgozása, forgalmazása, tárolása,",
    py"„xi) a radioaktív anyagok birtoklása, előállítása, termelése, kezelése, feldolgozása, forgalmazása, tárolása,",
    none⟩,
  ⟨py"a) 11/A. § (2d) bekezdésében a „de legalább a (2c) bekezdésben meghatározott terület” szövegrész.”",
    py"a) 11/A. § (2d) bekezdésében a „de legalább a (2c) bekezdésben meghatározott terület” szövegrész.",
    none⟩,
  ⟨py"g) 31/B. § (2d) bekezdésében a „jogerőre emelkedésétől” szövegrész helyébe a „véglegessé válásától szöveg,",
    py"g) 31/B. § (2d) bekezdésében a „jogerőre emelkedésétől” szövegrész helyébe a „véglegessé válásától” szöveg,",
    none⟩,
  ⟨py"helyébe a közhírré teszi” szöveg,",
    py"helyébe a „közhírré teszi” szöveg,",
    none⟩,
  ⟨py"vagyonvédelmi, valamint magánnyomozói tevékenységre vonatkozó közigazgatási hatósági eljárási szabályokat",
    py"vagyonvédelmi, valamint magánnyomozói tevékenységre vonatkozó közigazgatási hatósági eljárási szabályokat”",
    none⟩,
  ⟨py"szerinti bűncselekményi kör tekintetében büntetlen előéletű.”",
    py"szerinti bűncselekményi kör tekintetében büntetlen előéletű.",
    none⟩,
  ⟨py"a „honlapján közhírré tesz” szöveg, a „hirdetmény” szövegrész helyébe a „közhírré tett közlemény szöveg,",
    py"a „honlapján közhírré tesz” szöveg, a „hirdetmény” szövegrész helyébe a „közhírré tett közlemény” szöveg,",
    none⟩,
  ⟨py"(1b) A klímavédelemért felelős hatóság ellenőrzésre jogosult alkalmazottja (a továbbiakban: ellenőr) az ellenőrzés,",
    py"„(1b) A klímavédelemért felelős hatóság ellenőrzésre jogosult alkalmazottja (a továbbiakban: ellenőr) az ellenőrzés,",
    none⟩,
  ⟨py"szóló 2016. évi CL. törvény (a továbbiakban: Ákr.) szöveg,",
    py"szóló 2016. évi CL. törvény (a továbbiakban: Ákr.)” szöveg,",
    none⟩,
  ⟨py"b) 17. § (2) bekezdésében a „jogerős” szövegrész helyébe a „véglegessé vált” szöveg, a bírósági” szövegrész",
    py"b) 17. § (2) bekezdésében a „jogerős” szövegrész helyébe a „véglegessé vált” szöveg, a „bírósági” szövegrész",
    none⟩])

/-- replacement_fixups.py:2088-2093. -/
def saved139 : Str × List Replacement := (py"2017. évi LXI. törvény", [
  ⟨py"az engedély kiadásához vagy a nyilvántartásba vételhez szükséges feltételek már nem állnak fenn.”",
    py"az engedély kiadásához vagy a nyilvántartásba vételhez szükséges feltételek már nem állnak fenn.",
    none⟩])

/-- replacement_fixups.py:2094-2099. -/
def saved140 : Str × List Replacement := (py"2017. évi LXIV. törvény", [
  ⟨py"45. § (1) Ez a törvény a – a (2)–(4) bekezdésben foglalt kivétellel – a kihirdetését követő nyolcadik napon lép hatályba.",
    py"45. § (1) Ez a törvény – a (2)–(4) bekezdésben foglalt kivétellel – a kihirdetését követő nyolcadik napon lép hatályba.",
    none⟩])

/-- replacement_fixups.py:2100-2105. -/
def saved141 : Str × List Replacement := (py"2017. évi LXVIII. törvény", [
  ⟨py"d) 41. § (5) bekezdésében az ”Az állami vagy önkormányzati fenntartású előadó-művészeti” szövegrész helyébe",
    py"d) 41. § (5) bekezdésében az „Az állami vagy önkormányzati fenntartású előadó-művészeti” szövegrész helyébe",
    none⟩])

/-- replacement_fixups.py:2106-2143. -/
def saved142 : Str × List Replacement := (py"2017. évi XXXV. törvény", [
  ⟨py"to MÁV Zrt.”",
    py"to MÁV Zrt.",
    none⟩,
  ⟨py"board of directors or other officer indicated in the General Contractor’s statutes.”",
    py"board of directors or other officer indicated in the General Contractor’s statutes.",
    none⟩,
  ⟨py"MÁV Zrt.”",
    py"MÁV Zrt.",
    none⟩,
  ⟨py"“Tpvt.”: Act LVII of 1996 on the prohibition of unfair market practices and restriction of competition.”",
    py"“Tpvt.”: Act LVII of 1996 on the prohibition of unfair market practices and restriction of competition.",
    none⟩,
  ⟨py"szerződések alapján megszerzett jogok és kötelezettségek tekintetében a MÁV Zrt.”",
    py"szerződések alapján megszerzett jogok és kötelezettségek tekintetében a MÁV Zrt.",
    none⟩,
  ⟨py"tisztségviselőjére delegálhatja.”",
    py"tisztségviselőjére delegálhatja.",
    none⟩,
  ⟨py"„Hirdetmény”: a TED-ben (Tenders Electronic Daily) és a MÁV Zrt. honlapján közzétett Felhívás.”",
    py"„Hirdetmény”: a TED-ben (Tenders Electronic Daily) és a MÁV Zrt. honlapján közzétett Felhívás.",
    none⟩,
  ⟨py"„Tpvt.”: a tisztességtelen piaci magatartás és a versenykorlátozás tilalmáról szóló 1996. évi LVII. törvény.”",
    py"„Tpvt.”: a tisztességtelen piaci magatartás és a versenykorlátozás tilalmáról szóló 1996. évi LVII. törvény.",
    none⟩,
  ⟨py"nevében és javára képviselőként eljáró Fővállalkozó.”",
    py"nevében és javára képviselőként eljáró Fővállalkozó.",
    none⟩])

/-- replacement_fixups.py:2144-2149. -/
def saved143 : Str × List Replacement := (py"2018. évi CXIV. törvény", [
  ⟨py"b) az „E’’, „F’’, „G’’, „H’’, „I’’, „J’’ fizetési osztályban említett munkakör betöltése esetén évi huszonegy munkanap",
    py"b) az „E”, „F”, „G”, „H”, „I”, „J” fizetési osztályban említett munkakör betöltése esetén évi huszonegy munkanap",
    none⟩])

/-- replacement_fixups.py:2150-2163. -/
def saved144 : Str × List Replacement := (py"2018. évi CXV. törvény", [
  ⟨py"„A rendvédelmi feladatokat ellátó szervek hivatásos állományának szolgálati jogviszonyáról szóló 2015. évi",
    py"„65/L. § A rendvédelmi feladatokat ellátó szervek hivatásos állományának szolgálati jogviszonyáról szóló 2015. évi",
    none⟩,
  ⟨py"XLII. törvény és más kapcsolódó törvények módosításáról szóló 2018. évi CXV. törvény (a továbbiakban: Riasztv.)",
    py"XLII. törvény és más kapcsolódó törvények módosításáról szóló 2018. évi CXV. törvény (a továbbiakban: Riasztv.) 27. § (1)",
    none⟩,
  ⟨py"27. § (1) bekezdésével módosított 5. § (1) bekezdés a) pontját és a Riasztv. 27. § (2) bekezdésével módosított 15. §",
    py"bekezdésével módosított 5. § (1) bekezdés a) pontját és a Riasztv. 27. § (2) bekezdésével módosított 15. §",
    none⟩])

/-- replacement_fixups.py:2164-2169. -/
def saved145 : Str × List Replacement := (py"2018. évi CXXI. törvény", [
  ⟨py"lép.”",
    py"lép.",
    none⟩])

/-- replacement_fixups.py:2170-2183. -/
def saved146 : Str × List Replacement := (py"2018. évi CXXV. törvény", [
  ⟨py"e) 25/C. § (12) bekezdésében a „ , vagy állami szolgálati” szövegrész.”",
    py"e) 25/C. § (12) bekezdésében a „ , vagy állami szolgálati” szövegrész.",
    none⟩,
  ⟨py"betöltő személy is helyettesítheti.” szöveg lép.”",
    py"betöltő személy is helyettesítheti.” szöveg lép.",
    none⟩,
  ⟨py"a célhoz köthető feladat eredményes végrehajtásáért céljuttatásra jogosult.””",
    py"a célhoz köthető feladat eredményes végrehajtásáért céljuttatásra jogosult.”",
    none⟩])

/-- replacement_fixups.py:2184-2197. -/
def saved147 : Str × List Replacement := (py"2018. évi LI. törvény", [
  ⟨py"Maďarsko a Slovenská republika (ďalej len „zmluvné strany“),",
    py"Maďarsko a Slovenská republika (ďalej len „zmluvné strany”),",
    none⟩,
  ⟨py"slovenskej hraničnej čiary – hraničné úseky č. III., IV. a VIII. – 2013“, ktorý ako príloha tejto zmluvy tvorí jej",
    py"slovenskej hraničnej čiary – hraničné úseky č. III., IV. a VIII. – 2013”, ktorý ako príloha tejto zmluvy tvorí jej",
    none⟩,
  ⟨py"MAĎARSKO SLOVENSKÚ REPUBLIKU“",
    py"MAĎARSKO SLOVENSKÚ REPUBLIKU”",
    none⟩])

/-- replacement_fixups.py:2198-2203. -/
def saved148 : Str × List Replacement := (py"2018. évi LII. törvény", [
  ⟨py"3. a szociális igazgatásról és szociális ellátásokról szóló 1993. évi III. törvény 4. § (1c) pontjában az „egészségügyi",
    py"3. a szociális igazgatásról és szociális ellátásokról szóló 1993. évi III. törvény 4. § (1c) bekezdésében az „egészségügyi",
    none⟩])

/-- replacement_fixups.py:2204-2209. -/
def saved149 : Str × List Replacement := (py"2019. évi CIX. törvény", [
  ⟨py"„77. §/A. § (1) Az MKK folyamatos működésének biztosítása érdekében a központi költségvetésről szóló törvényben",
    py"„77/A. § (1) Az MKK folyamatos működésének biztosítása érdekében a központi költségvetésről szóló törvényben",
    none⟩])

/-- replacement_fixups.py:2210-2215. -/
def saved150 : Str × List Replacement := (py"2019. évi CX. törvény", [
  ⟨py"kormányhivatal” szöveg lép.”",
    py"kormányhivatal” szöveg lép.",
    none⟩])

/-- replacement_fixups.py:2216-2221. -/
def saved151 : Str × List Replacement := (py"2019. évi CXII. törvény", [
  ⟨py"„44a. képzés: a 22/C. § alkalmazásában olyan oktatást tartalmazó képzés, amely nem kizárólag vagy nem",
    py"„44/a. képzés: a 22/C. § alkalmazásában olyan oktatást tartalmazó képzés, amely nem kizárólag vagy nem",
    none⟩])

/-- replacement_fixups.py:2222-2227. -/
def saved152 : Str × List Replacement := (py"2020. évi V. törvény", [
  ⟨py"12. § A Btk. XIX. fejezete a következő alcímmel egészül ki:",
    py"12. § A Btk. a következő alcímmel és 207/A. §-al egészül ki:",
    none⟩])

/-- `replacement_fixups` (replacement_fixups.py:7-2228). -/
def savedReplacements : Replacements := [
  saved1, saved2, saved3, saved4, saved5, saved6, saved7, saved8, saved9, saved10, saved11, saved12,
  saved13, saved14, saved15, saved16, saved17, saved18, saved19, saved20, saved21, saved22, saved23, saved24,
  saved25, saved26, saved27, saved28, saved29, saved30, saved31, saved32, saved33, saved34, saved35, saved36,
  saved37, saved38, saved39, saved40, saved41, saved42, saved43, saved44, saved45, saved46, saved47, saved48,
  saved49, saved50, saved51, saved52, saved53, saved54, saved55, saved56, saved57, saved58, saved59, saved60,
  saved61, saved62, saved63, saved64, saved65, saved66, saved67, saved68, saved69, saved70, saved71, saved72,
  saved73, saved74, saved75, saved76, saved77, saved78, saved79, saved80, saved81, saved82, saved83, saved84,
  saved85, saved86, saved87, saved88, saved89, saved90, saved91, saved92, saved93, saved94, saved95, saved96,
  saved97, saved98, saved99, saved100, saved101, saved102, saved103, saved104, saved105, saved106, saved107, saved108,
  saved109, saved110, saved111, saved112, saved113, saved114, saved115, saved116, saved117, saved118, saved119, saved120,
  saved121, saved122, saved123, saved124, saved125, saved126, saved127, saved128, saved129, saved130, saved131, saved132,
  saved133, saved134, saved135, saved136, saved137, saved138, saved139, saved140, saved141, saved142, saved143, saved144,
  saved145, saved146, saved147, saved148, saved149, saved150, saved151, saved152]

end Verif
