/-!
# The texts of the page in its three languages

Generated by `tools/gen_i18n.py` from `mpp-front/src/lib/i18n/{en,es,eu}.json` and from the
components in `mpp-front/src`.
-/
namespace Mpp.Front

/-- `lib/i18n/en.json`, all its entries in their order. -/
def enTable : List (String × String) := [
  ("title",
    "M++ Simulator"),
  ("words.documentation",
    "Documentation"),
  ("words.loading",
    "Loading"),
  ("downloadingCode",
    "Downloading code"),
  ("words.cancel",
    "Cancel"),
  ("words.save",
    "Save"),
  ("words.examples",
    "Examples"),
  ("words.continue",
    "Continue"),
  ("appendedFin",
    "FIN instruction appended"),
  ("checkDocs",
    "Check docs"),
  ("setPCTo",
    "Set PC to "),
  ("areYouSure",
    "Are you sure?"),
  ("words.yes",
    "Yes"),
  ("words.no",
    "No"),
  ("pcSetted.title",
    "PC setted successfully to"),
  ("pcSetted.description",
    "The execution will start from the new offset"),
  ("howToUseLabels.title",
    "How to use labels?"),
  ("howToUseLabels.description.1",
    "You declare them starting with 'T'"),
  ("howToUseLabels.description.2",
    "They will be colored in yellow"),
  ("howToUseLabels.description.3",
    "You can use them in the code"),
  ("credit",
    "Made with ❤️ by <a href=\"<AUTHOR_URL>\" target=\"_blank\"><AUTHOR_NAME></a>"),
  ("words.actions",
    "Actions"),
  ("words.coding",
    "Coding"),
  ("openEditor",
    "Open Editor"),
  ("words.status",
    "Status"),
  ("status.running",
    "running"),
  ("status.stopped",
    "stopped"),
  ("whatIsThis",
    "What is this?"),
  ("words.runProgram",
    "Run Program"),
  ("words.runInstruction",
    "Run Instruction"),
  ("words.runState",
    "Run State"),
  ("words.stop",
    "Stop"),
  ("settings.title",
    "Settings"),
  ("settings.cycleTime",
    "Cycle time (ms)"),
  ("settings.memoryValueBase",
    "Memory value base"),
  ("settings.language",
    "Language"),
  ("settings.onboarding.on",
    "Deactivate onboarding"),
  ("settings.onboarding.off",
    "Activate onboarding"),
  ("settings.measureRunTime.on",
    "Deactivate measure run time"),
  ("settings.measureRunTime.off",
    "Activate measure run time"),
  ("settings.cycleTimeZeroMsg",
    "The execution will be as fast as possible."),
  ("info.title",
    "Info"),
  ("info.about.title",
    "About"),
  ("info.about.description",
    "This is a simulator for the machine ++. It is developed by <a href=\"https://nullx.me\" target=\"_blank\">nullx</a> but it was originally designed on the 90's by José Mª Angulo Usategui, Javier García Zubía & Ignacio Angulo Martínez."),
  ("info.technologies.title",
    "Technologies"),
  ("info.tecnologies.react",
    "React"),
  ("info.tecnologies.react.description",
    "React is a A JavaScript library for building user interfaces"),
  ("info.tecnologies.webassembly",
    "WebAssembly"),
  ("info.tecnologies.webassembly.description",
    "WebAssembly (abbreviated Wasm) is a binary instruction format for a stack-based virtual machine"),
  ("info.tecnologies.c",
    "C"),
  ("info.tecnologies.c.description",
    "C is a general-purpose imperative procedural computer programming language. It was designed to be compiled to provide low-level access to memory and language constructs that map efficiently to machine instructions."),
  ("info.thirdParty.title",
    "Third party attribution"),
  ("info.thirdParty.antDesign",
    "Ant Design"),
  ("info.thirdParty.antDesign.description",
    "Ant Design is a React UI library that are useful for building elegant user interfaces."),
  ("info.thirdParty.reactFlow",
    "React Flow"),
  ("info.thirdParty.reactFlow.description",
    "React Flow is highly customizable library for building interactive node-based UIs, editors, flow charts and diagrams."),
  ("info.thirdParty.atomizeReact",
    "Atomize React"),
  ("info.thirdParty.atomizeReact.description",
    "Atomize React is a UI framework that helps developers collaborate with designers and build consistent user interfaces effortlessly."),
  ("info.changelog.title",
    "Changelog"),
  ("info.changelog.currentVersion",
    "Current version"),
  ("info.changelog.commitHistory",
    "Commit history"),
  ("rb.helpInfo",
    "General purpose register. Use it as 'RB' in the code."),
  ("rc.helpInfo",
    "General purpose register. Use it as 'RC' in the code."),
  ("rd.helpInfo",
    "General purpose register. Use it as 'RD' in the code."),
  ("re.helpInfo",
    "General purpose register. Use it as 'RE' in the code."),
  ("acum.helpInfo",
    "Accumulator is a register that is the same length as the processor word (ALU operands). It is used to contain the result of an arithmetic operation or one of the ALU operands."),
  ("pc.helpInfo",
    "Program Counter is a register that contains the address of the next instruction to be executed. It is used to control the execution of the program."),
  ("sp.helpInfo",
    "Stack Pointer is a register that contains the address of the top of the stack. It is used to control the execution of the program in some cases (e.g. subrutine call)."),
  ("ri.helpInfo",
    "Register Instruction is a register that contains the instruction currently being executed. It is used to control the execution of the program."),
  ("memory.helpInfo",
    "Memory is a set of values that contains the instructions and data of the program. If not initialized it is filled randomly."),
  ("flags.helpInfo",
    "Flags are used to indicate the status of the last ALU operation."),
  ("flags.fzHelpInfo",
    "FZ is a flag that indicates whether the result of the last ALU operation is zero."),
  ("flags.fcHelpInfo",
    "FC is a flag that indicates whether the result of the last ALU operation has carry."),
  ("transitionstate.label",
    "Transition state"),
  ("debugger.label",
    "Debugger"),
  ("flags.label",
    "Flags"),
  ("clockCycleTime.label",
    "Clock cycle time"),
  ("alu.label",
    "ALU"),
  ("databus.label",
    "Data bus"),
  ("registersBank.label",
    "Registers bank"),
  ("rb.label",
    "RB"),
  ("rc.label",
    "RC"),
  ("rd.label",
    "RD"),
  ("re.label",
    "RE"),
  ("acum.label",
    "ACUM"),
  ("2op.label",
    "2OP"),
  ("pc.label",
    "PC"),
  ("sp.label",
    "SP"),
  ("h.label",
    "H"),
  ("l.label",
    "L"),
  ("controlunit.label",
    "Control unit"),
  ("ri.label",
    "RI"),
  ("state.label",
    "State"),
  ("memory.label",
    "Memory"),
  ("transitionstates.noStates",
    "No states"),
  ("transitionstates.nextState",
    "Next state"),
  ("transitionstates.executed",
    "Executed"),
  ("memory.reading",
    "Reading"),
  ("memory.writing",
    "Writting"),
  ("debugger.memoryRange",
    "Memory range"),
  ("debugger.operation",
    "Operation"),
  ("debugger.boundsPadding",
    "Bounds padding"),
  ("tour.docs",
    "First of all check the documentation"),
  ("tour.mainTable",
    "This is the main part of the simulator, where you can see how each program evolves."),
  ("tour.coder",
    "Here you can create your programs."),
  ("tour.runButtons",
    "With these buttons you can run a program at different speeds."),
  ("tour.settings",
    "Here you can configure the simulator and other parameters."),
  ("tour.info",
    "Here you can see information about the simulator."),
  ("tour.openSource",
    "And remember that this software is open source 😋"),
  ("status.runningTooLong",
    "The program has been running for too long. (remember that it could be that an infinite loop has been reached) What do you want to do?")]

/-- `lib/i18n/es.json`, all its entries in their order. -/
def esTable : List (String × String) := [
  ("title",
    "Simulador M++"),
  ("words.documentation",
    "Documentación"),
  ("words.loading",
    "Cargando"),
  ("downloadingCode",
    "Descargando código"),
  ("words.cancel",
    "Cancelar"),
  ("words.save",
    "Guardar"),
  ("words.continue",
    "Continuar"),
  ("words.examples",
    "Ejemplos"),
  ("appendedFin",
    "Se ha añadido instrucción de finalización (FIN)"),
  ("checkDocs",
    "Ver documentaión"),
  ("setPCTo",
    "Establecer PC a "),
  ("areYouSure",
    "¿Estás seguro?"),
  ("words.yes",
    "Sí"),
  ("words.no",
    "No"),
  ("pcSetted.title",
    "PC se ha establecido a"),
  ("pcSetted.description",
    "La ejecución empezará desde el PC establecido"),
  ("howToUseLabels.title",
    "¿Como se utilizan las etiquetas?"),
  ("howToUseLabels.description.1",
    "Las declaras empezando con 'T'"),
  ("howToUseLabels.description.2",
    "Se colorearán de amarillo"),
  ("howToUseLabels.description.3",
    "Las puedes usar en el código"),
  ("credit",
    "Hecho con ❤️ por <a href=\"<AUTHOR_URL>\" target=\"_blank\"><AUTHOR_NAME></a>"),
  ("words.actions",
    "Acciones"),
  ("words.coding",
    "Programación"),
  ("openEditor",
    "Abrir editor"),
  ("words.status",
    "Estado"),
  ("status.running",
    "en ejecución"),
  ("status.stopped",
    "detenido"),
  ("whatIsThis",
    "¿Qué es esto?"),
  ("words.runProgram",
    "Ejecutar programa"),
  ("words.runInstruction",
    "Ejecutar instrucción"),
  ("words.runState",
    "Ejecutar estado"),
  ("words.stop",
    "Detener"),
  ("settings.title",
    "Configuración"),
  ("settings.cycleTime",
    "Tiempo de ciclo (ms)"),
  ("settings.memoryValueBase",
    "Base del valor de memoria"),
  ("settings.language",
    "Idioma"),
  ("settings.onboarding.on",
    "Desactivar tutorial"),
  ("settings.onboarding.off",
    "Activar tutorial"),
  ("settings.measureRunTime.on",
    "Desactivar medición de tiempo de ejecución"),
  ("settings.measureRunTime.off",
    "Activar medición de tiempo de ejecución"),
  ("settings.cycleTimeZeroMsg",
    "La ejecución será prácticamente instantánea."),
  ("info.title",
    "Información"),
  ("info.about.title",
    "Sobre"),
  ("info.about.description",
    "Mpp es un simple, rapido, y potente simulador para la maquina plus plus desarrolada por <a href=\"https://nullx.me\" target=\"_blank\">nullx</a> pero que fue originalmente diseñada en los 90 por José Mª Angulo Usategui, Javier García Zubía y Ignacio Angulo Martínez."),
  ("info.technologies.title",
    "Tecnologías"),
  ("info.tecnologies.react",
    "React"),
  ("info.tecnologies.react.description",
    "React es una biblioteca de JavaScript para crear interfaces de usuario"),
  ("info.tecnologies.webassembly",
    "WebAssembly"),
  ("info.tecnologies.webassembly.description",
    "WebAssembly (abreviado Wasm) es un formato de instrucción binaria para una máquina virtual basada en pila."),
  ("info.tecnologies.c",
    "C"),
  ("info.tecnologies.c.description",
    "C es un lenguaje de programación de computadora procedimental imperativo de propósito general. Fue diseñado para ser compilado para proporcionar acceso de bajo nivel a la memoria y construcciones de lenguaje que se asignan de manera eficiente a las instrucciones de la máquina."),
  ("info.thirdParty.title",
    "Atribución de terceros"),
  ("info.thirdParty.antDesign",
    "Ant Design"),
  ("info.thirdParty.antDesign.description",
    "Ant Design es una biblioteca React UI que es útil para crear interfaces de usuario elegantes."),
  ("info.thirdParty.reactFlow",
    "React Flow"),
  ("info.thirdParty.reactFlow.description",
    "React Flow es una biblioteca altamente personalizable para crear interfaces de usuario, editores, diagramas de flujo y diagramas interactivos basados ​​en nodos."),
  ("info.thirdParty.atomizeReact",
    "Atomize React"),
  ("info.thirdParty.atomizeReact.description",
    "Atomize React es un marco de interfaz de usuario que ayuda a los desarrolladores a colaborar con los diseñadores y crear interfaces de usuario consistentes sin esfuerzo."),
  ("info.changelog.title",
    "Registro de cambios"),
  ("info.changelog.currentVersion",
    "Versión actual"),
  ("info.changelog.commitHistory",
    "Historial de commits"),
  ("rb.helpInfo",
    "Registro de propósito general. Usar en el código como: 'RB'"),
  ("rc.helpInfo",
    "Registro de propósito general. Usar en el código como: 'RC'"),
  ("rd.helpInfo",
    "Registro de propósito general. Usar en el código como: 'RD'"),
  ("re.helpInfo",
    "Registro de propósito general. Usar en el código como: 'RE'"),
  ("acum.helpInfo",
    "El acumulador es un registro que tiene la misma longitud que la palabra del procesador (operandos ALU). Se utiliza para contener el resultado de una operación aritmética o uno de los operandos ALU."),
  ("pc.helpInfo",
    "El contador de programa es un registro que contiene la dirección de la siguiente instrucción a ejecutar. Se utiliza para controlar la ejecución del programa."),
  ("sp.helpInfo",
    "Stack Pointer es un registro que contiene la dirección del primer lugar de la pila. Se utiliza para controlar la ejecución del programa en algunos casos (por ejemplo, llamada de subrutina)."),
  ("ri.helpInfo",
    "La instrucción de registro es un registro que contiene la instrucción que se está ejecutando actualmente. Se utiliza para controlar la ejecución del programa."),
  ("memory.helpInfo",
    "La memoria es un conjunto de valores que contiene las instrucciones y datos del programa. Si no se inicializa, se llena aleatoriamente."),
  ("flags.helpInfo",
    "Las banderas se utilizan para indicar el estado de la última operación de ALU."),
  ("flags.fzHelpInfo",
    "FZ es un flag que indica si el resultado de la última operación ALU es cero."),
  ("flags.fcHelpInfo",
    "FC es un flag que indica si el resultado de la última operación ALU tiene acarreo."),
  ("transitionstate.label",
    "Estados"),
  ("debugger.label",
    "Depurador"),
  ("flags.label",
    "Flags"),
  ("clockCycleTime.label",
    "Tiempo de ciclo"),
  ("alu.label",
    "ALU"),
  ("databus.label",
    "Bus de datos"),
  ("registersBank.label",
    "Banco de registros"),
  ("rb.label",
    "RB"),
  ("rc.label",
    "RC"),
  ("rd.label",
    "RD"),
  ("re.label",
    "RE"),
  ("acum.label",
    "ACUM"),
  ("2op.label",
    "2OP"),
  ("pc.label",
    "PC"),
  ("sp.label",
    "SP"),
  ("h.label",
    "H"),
  ("l.label",
    "L"),
  ("controlunit.label",
    "Unidad de control"),
  ("ri.label",
    "RI"),
  ("state.label",
    "Estado"),
  ("memory.label",
    "Memoria"),
  ("transitionstates.noStates",
    "Sin estados"),
  ("transitionstates.nextState",
    "Siguiente estado"),
  ("transitionstates.executed",
    "Ejecutado"),
  ("memory.reading",
    "Leyendo"),
  ("memory.writing",
    "Escribiendo"),
  ("debugger.memoryRange",
    "Rango de memoria"),
  ("debugger.operation",
    "Operación"),
  ("debugger.boundsPadding",
    "Elementos por encima y por debajo"),
  ("tour.docs",
    "Antes de nada consulta la documentación"),
  ("tour.mainTable",
    "Esta es la parte principal del simulador, donde podrás observar cómo evoluciona cada programa."),
  ("tour.coder",
    "Aquí podrás crear tus programas."),
  ("tour.runButtons",
    "Con estos botones podrás ejecutar un programa a diferentes velocidades."),
  ("tour.settings",
    "Aquí podrás configurar el simulador y otros parámetros."),
  ("tour.info",
    "Aquí podrás ver información sobre el simulador."),
  ("tour.openSource",
    "Y recuerda que este software es de código abierto 😋"),
  ("status.runningTooLong",
    "El programa lleva ejecutandose demasiado tiempo. (recuerde que podría ser que se ha alcanzado un bucle infinito) ¿Qué desea hacer?")]

/-- `lib/i18n/eu.json`, all its entries in their order. -/
def euTable : List (String × String) := [
  ("title",
    "M++ simulagailua"),
  ("words.documentation",
    "Dokumentazioa"),
  ("words.loading",
    "Kargatzen"),
  ("downloadingCode",
    "Kodea jaisten"),
  ("words.cancel",
    "Deuseztatu"),
  ("words.save",
    "Gorde"),
  ("words.continue",
    "Jarraitu"),
  ("words.examples",
    "Adibideak"),
  ("appendedFin",
    "Amaitze instrukzioa gehitu da (FIN)"),
  ("checkDocs",
    "Dokumentazioa ikusi"),
  ("setPCTo",
    "PC ezarri"),
  ("areYouSure",
    "Ziur zaude?"),
  ("words.yes",
    "Bai"),
  ("words.no",
    "Ez"),
  ("pcSetted.title",
    "PC ezarri da"),
  ("pcSetted.description",
    "Ezarritako PCtik hasiko da exekuzioa"),
  ("howToUseLabels.title",
    "Nola erabiltzen dira etiketak?"),
  ("howToUseLabels.description.1",
    "T' letrarekin hasita deklaratzen dituzu"),
  ("howToUseLabels.description.2",
    "Koloreztatuko dira"),
  ("howToUseLabels.description.3",
    "Kodean erabil ditzakezu"),
  ("credit",
    "<a href=\"<AUTHOR_URL>\" target=\"_blank\"><AUTHOR_NAME></a>-ek eginda ❤️"),
  ("words.actions",
    "Ekintzak"),
  ("words.coding",
    "Programazioa"),
  ("openEditor",
    "Editorea ireki"),
  ("words.status",
    "Egoera"),
  ("status.running",
    "exekutatzen"),
  ("status.stopped",
    "geldituta"),
  ("whatIsThis",
    "Zer da hau?"),
  ("words.runProgram",
    "Programa exekutatu"),
  ("words.runInstruction",
    "Instrukzioa exekutatu"),
  ("words.runState",
    "Egoera exekutatu"),
  ("words.stop",
    "Gelditu"),
  ("settings.title",
    "Konfigurazioa"),
  ("settings.cycleTime",
    "Zikloaren denbora (ms)"),
  ("settings.memoryValueBase",
    "Memoriaren balioaren oinarria"),
  ("settings.language",
    "Hizkuntza"),
  ("settings.onboarding.on",
    "Tutoriala desaktibatu"),
  ("settings.onboarding.off",
    "Tutoriala aktibatu"),
  ("settings.measureRunTime.on",
    "Exekuzio denboraren neurketa desaktibatu"),
  ("settings.measureRunTime.off",
    "Exekuzio denboraren neurketa aktibatu"),
  ("settings.cycleTimeZeroMsg",
    "Exekuzioa ia berehalakoa izango da."),
  ("info.title",
    "Informazioa"),
  ("info.about.title",
    "Honi buruz"),
  ("info.about.description",
    "Mpp simulagailu sinple, azkar eta indartsua da plus plus makinarako, <a href=\"https://nullx.me\" target=\"_blank\">nullx</a>"),
  ("info.technologies.title",
    "Teknologiak"),
  ("info.tecnologies.react",
    "React"),
  ("info.tecnologies.react.description",
    "React JavaScript liburutegia da, erabiltzaile interfazeak sortzeko."),
  ("info.tecnologies.webassembly",
    "WebAssembly"),
  ("info.tecnologies.webassembly.description",
    "WebAssembly (Wasm laburtuta) pila oinarritutako makina birtual baterako instrukzio formatu binarioa da."),
  ("info.tecnologies.c",
    "C"),
  ("info.tecnologies.c.description",
    "C helburu orokorreko inperatibo prozedurazko ordenagailuen programazio lengoaia da. Makina instrukzioetara eraginkortasunez mapatzen diren memoria baxuko sarbidea eta lengoaiaren eraikuntzak eskaintzeko diseinatu zen."),
  ("info.thirdParty.title",
    "Hirugarrenen atribuzioa"),
  ("info.thirdParty.antDesign",
    "Ant Design"),
  ("info.thirdParty.antDesign.description",
    "Ant Design React UI liburutegi bat da, erabiltzaile interfaze dotoreak sortzeko erabilgarria."),
  ("info.thirdParty.reactFlow",
    "React Flow"),
  ("info.thirdParty.reactFlow.description",
    "React Flow erabiltzaile interfazeak, editoreak, nodoetan oinarritutako diagrama interaktiboak eta fluxu diagramak sortzeko oso pertsonalizagarria den liburutegia da."),
  ("info.thirdParty.atomizeReact",
    "Atomize React"),
  ("info.thirdParty.atomizeReact.description",
    "Atomize React erabiltzaile interfazeen marko bat da, software garatzaileak diseinatzaileekin lankidetzan aritzeko eta interfaze erabiltzaile koherenteak ahaleginik gabe sortzeko laguntzen duena."),
  ("info.changelog.title",
    "Aldaketen erregistroa"),
  ("info.changelog.currentVersion",
    "Egungo bertsioa"),
  ("info.changelog.commitHistory",
    "Commit-en historikoa"),
  ("rb.helpInfo",
    "Helburu orokorreko erregistroa. Kodean hala erabili: 'RB'"),
  ("rc.helpInfo",
    "Helburu orokorreko erregistroa. Kodean hala erabili: 'RC'"),
  ("rd.helpInfo",
    "Helburu orokorreko erregistroa. Kodean hala erabili: 'RD'"),
  ("re.helpInfo",
    "Helburu orokorreko erregistroa. Kodean hala erabili: 'RE'"),
  ("acum.helpInfo",
    "Akumuladorea prozesadorearen hitzaren luzera berdineko erregistro bat da (ALU operandos). ALUren operazio baten emaitza edo ALUren operandoetako bat gordetzeko erabiltzen da."),
  ("pc.helpInfo",
    "Programa kontagailua exekutatuko den hurrengo instrukzioaren helbidea duen erregistroa da. Programaren exekuzioa kontrolatzeko erabiltzen da."),
  ("sp.helpInfo",
    "Stack Pointer pila lehenengo tokiko helbidea duen erregistroa da. Kasu batzuetan programaren exekuzioa kontrolatzeko erabiltzen da (adibidez, azpierrutina deia)."),
  ("ri.helpInfo",
    "Erregistro instrukzioa unean exekutatzen ari den instrukzioa duen erregistroa da. Programaren exekuzioa kontrolatzeko erabiltzen da."),
  ("memory.helpInfo",
    "Memoria programa instrukzioak eta datuak dituen balioen multzoa da. Hasieratzen ez bada, ausaz betetzen da."),
  ("flags.helpInfo",
    "Banderak ALUren azken operazioaren egoera adierazteko erabiltzen dira."),
  ("flags.fzHelpInfo",
    "FZ bandera ALUren azken operazioaren emaitza zero dela adierazten duena da."),
  ("flags.fcHelpInfo",
    "FC bandera ALUren azken operazioaren emaitzak eramana duela adierazten duena da."),
  ("transitionstate.label",
    "Egoerak"),
  ("debugger.label",
    "Araztailea"),
  ("flags.label",
    "Banderak"),
  ("clockCycleTime.label",
    "Ziklo-denbora"),
  ("alu.label",
    "ALU"),
  ("databus.label",
    "Datuen busa"),
  ("registersBank.label",
    "Erregistroen bankua"),
  ("rb.label",
    "RB"),
  ("rc.label",
    "RC"),
  ("rd.label",
    "RD"),
  ("re.label",
    "RE"),
  ("acum.label",
    "ACUM"),
  ("2op.label",
    "2OP"),
  ("pc.label",
    "PC"),
  ("sp.label",
    "SP"),
  ("h.label",
    "H"),
  ("l.label",
    "L"),
  ("controlunit.label",
    "Kontrol unitatea"),
  ("ri.label",
    "RI"),
  ("state.label",
    "Egoera"),
  ("memory.label",
    "Memoria"),
  ("transitionstates.noStates",
    "Egoerarik gabe"),
  ("transitionstates.nextState",
    "Hurrengo egoera"),
  ("transitionstates.executed",
    "Exekutatuta"),
  ("memory.reading",
    "Irakurtzen"),
  ("memory.writing",
    "Idazten"),
  ("debugger.memoryRange",
    "Memoriaren tartea"),
  ("debugger.operation",
    "Operazioa"),
  ("debugger.boundsPadding",
    "Elementuak goitik eta behetik"),
  ("tour.docs",
    "Lehenik eta behin, dokumentazioa kontsultatu"),
  ("tour.mainTable",
    "Hau da simulagailuaren parte nagusia, non programa bakoitzaren bilakaera ikus dezakezun."),
  ("tour.coder",
    "Hemen zure programak sortu ahal izango dituzu."),
  ("tour.runButtons",
    "Botoi hauekin programa abiadura desberdinetan exekutatu ahal izango duzu."),
  ("tour.settings",
    "Hemen simulagailua eta beste parametro batzuk konfiguratu ahal izango dituzu."),
  ("tour.info",
    "Hemen simulagailuari buruzko informazioa ikus dezakezu."),
  ("tour.openSource",
    "Eta gogoratu software hau kode irekikoa dela 😋"),
  ("status.runningTooLong",
    "Programak denbora gehiegi darama exekutatzen. (gogoratu bukle infinitu batean egon litekeela) Zer nahi duzu egin?")]

/-- The keys that the components ask for. -/
def usedKeys : List String := [
  -- App.tsx:14
  "tour.docs",
  -- App.tsx:18
  "tour.mainTable",
  -- App.tsx:22
  "tour.coder",
  -- App.tsx:26
  "tour.runButtons",
  -- App.tsx:31
  "tour.settings",
  -- App.tsx:35
  "tour.info",
  -- App.tsx:39
  "tour.openSource",
  -- components/Attribution.tsx:9
  "credit",
  -- components/Docs.tsx:14
  "words.documentation",
  -- components/Technologies.tsx:7
  "info.tecnologies.react",
  -- components/Technologies.tsx:8
  "info.tecnologies.react.description",
  -- components/Technologies.tsx:13
  "info.tecnologies.webassembly",
  -- components/Technologies.tsx:14
  "info.tecnologies.webassembly.description",
  -- components/Technologies.tsx:19
  "info.tecnologies.c",
  -- components/Technologies.tsx:20
  "info.tecnologies.c.description",
  -- components/ThirdPartyAttribution.tsx:7
  "info.thirdParty.antDesign",
  -- components/ThirdPartyAttribution.tsx:8
  "info.thirdParty.antDesign.description",
  -- components/ThirdPartyAttribution.tsx:13
  "info.thirdParty.reactFlow",
  -- components/ThirdPartyAttribution.tsx:14
  "info.thirdParty.reactFlow.description",
  -- components/ThirdPartyAttribution.tsx:19
  "info.thirdParty.atomizeReact",
  -- components/ThirdPartyAttribution.tsx:20
  "info.thirdParty.atomizeReact.description",
  -- pages/CPUTable/index.tsx:90, pages/Welcome/index.tsx:26
  "title",
  -- pages/CPUTable/components/ButtonStack.tsx:9
  "words.actions",
  -- pages/CPUTable/components/ButtonStack.tsx:11
  "words.coding",
  -- pages/CPUTable/components/Info.tsx:30
  "info.title",
  -- pages/CPUTable/components/Info.tsx:36
  "info.about.title",
  -- pages/CPUTable/components/Info.tsx:38
  "info.technologies.title",
  -- pages/CPUTable/components/Info.tsx:40
  "info.thirdParty.title",
  -- pages/CPUTable/components/Info.tsx:42
  "info.changelog.title",
  -- pages/CPUTable/components/Info.tsx:37
  "info.about.description",
  -- pages/CPUTable/components/MemoryNode.tsx:175
  "memory.reading",
  -- pages/CPUTable/components/MemoryNode.tsx:175
  "memory.writting",
  -- pages/CPUTable/components/RegisterNode.tsx:65
  "checkDocs",
  -- pages/CPUTable/components/RunButtons.tsx:27, pages/CPUTable/components/RunButtons.tsx:238
  "words.runProgram",
  -- pages/CPUTable/components/RunButtons.tsx:31, pages/CPUTable/components/RunButtons.tsx:252
  "words.runInstruction",
  -- pages/CPUTable/components/RunButtons.tsx:35, pages/CPUTable/components/RunButtons.tsx:261
  "words.runState",
  -- pages/CPUTable/components/RunButtons.tsx:39, pages/CPUTable/components/RunButtons.tsx:159
  "words.stop",
  -- pages/CPUTable/components/RunButtons.tsx:96, pages/CPUTable/components/RunButtons.tsx:282
  "status.running",
  -- pages/CPUTable/components/RunButtons.tsx:134
  "status.runningTooLong",
  -- pages/CPUTable/components/RunButtons.tsx:147
  "words.continue",
  -- pages/CPUTable/components/RunButtons.tsx:281
  "words.status",
  -- pages/CPUTable/components/RunButtons.tsx:282
  "status.stopped",
  -- pages/CPUTable/components/RunButtons.tsx:47
  "whatIsThis",
  -- pages/CPUTable/components/Settings.tsx:145
  "settings.title",
  -- pages/CPUTable/components/Settings.tsx:154
  "settings.cycleTime",
  -- pages/CPUTable/components/Settings.tsx:167
  "settings.cycleTimeZeroMsg",
  -- pages/CPUTable/components/Settings.tsx:179
  "settings.memoryValueBase",
  -- pages/CPUTable/components/Settings.tsx:206
  "settings.language",
  -- pages/CPUTable/components/Settings.tsx:226
  "settings.onboarding.on",
  -- pages/CPUTable/components/Settings.tsx:227
  "settings.onboarding.off",
  -- pages/CPUTable/components/Settings.tsx:235
  "settings.measureRunTime.on",
  -- pages/CPUTable/components/Settings.tsx:236
  "settings.measureRunTime.off",
  -- pages/CPUTable/components/Changelog/index.tsx:92
  "info.changelog.currentVersion",
  -- pages/CPUTable/components/Changelog/index.tsx:93, pages/CPUTable/components/Changelog/index.tsx:115
  "words.loading",
  -- pages/CPUTable/components/Changelog/index.tsx:114
  "info.changelog.commitHistory",
  -- pages/CPUTable/components/DebuggerNode/index.tsx:88
  "debugger.memoryRange",
  -- pages/CPUTable/components/DebuggerNode/index.tsx:91
  "debugger.operation",
  -- pages/CPUTable/components/DebuggerNode/index.tsx:170
  "debugger.boundsPadding",
  -- pages/CPUTable/components/StateTransition/index.tsx:109
  "transitionstates.nextState",
  -- pages/CPUTable/components/StateTransition/index.tsx:112
  "transitionstates.executed",
  -- pages/CPUTable/components/StateTransition/index.tsx:137
  "transitionstates.noStates",
  -- pages/CPUTable/constants/nodes.tsx:7
  "registersBank.label",
  -- pages/CPUTable/constants/nodes.tsx:32
  "rb.label",
  -- pages/CPUTable/constants/nodes.tsx:35
  "rb.helpInfo",
  -- pages/CPUTable/constants/nodes.tsx:45
  "rc.label",
  -- pages/CPUTable/constants/nodes.tsx:48
  "rc.helpInfo",
  -- pages/CPUTable/constants/nodes.tsx:58
  "rd.label",
  -- pages/CPUTable/constants/nodes.tsx:61
  "rd.helpInfo",
  -- pages/CPUTable/constants/nodes.tsx:71
  "re.label",
  -- pages/CPUTable/constants/nodes.tsx:74
  "re.helpInfo",
  -- pages/CPUTable/constants/nodes.tsx:84
  "acum.label",
  -- pages/CPUTable/constants/nodes.tsx:99
  "acum.helpInfo",
  -- pages/CPUTable/constants/nodes.tsx:109
  "2op.label",
  -- pages/CPUTable/constants/nodes.tsx:128
  "pc.label",
  -- pages/CPUTable/constants/nodes.tsx:140
  "pc.helpInfo",
  -- pages/CPUTable/constants/nodes.tsx:150
  "sp.label",
  -- pages/CPUTable/constants/nodes.tsx:161
  "sp.helpInfo",
  -- pages/CPUTable/constants/nodes.tsx:170
  "h.label",
  -- pages/CPUTable/constants/nodes.tsx:186
  "l.label",
  -- pages/CPUTable/constants/nodes.tsx:200
  "controlunit.label",
  -- pages/CPUTable/constants/nodes.tsx:218
  "ri.label",
  -- pages/CPUTable/constants/nodes.tsx:229
  "ri.helpInfo",
  -- pages/CPUTable/constants/nodes.tsx:239
  "state.label",
  -- pages/CPUTable/constants/nodes.tsx:252
  "memory.label",
  -- pages/CPUTable/constants/nodes.tsx:260
  "memory.helpInfo",
  -- pages/CPUTable/constants/nodes.tsx:268
  "transitionstate.label",
  -- pages/CPUTable/constants/nodes.tsx:277
  "debugger.label",
  -- pages/CPUTable/constants/nodes.tsx:287
  "flags.label",
  -- pages/CPUTable/constants/nodes.tsx:288
  "flags.helpInfo",
  -- pages/CPUTable/constants/nodes.tsx:289
  "flags.fzHelpInfo",
  -- pages/CPUTable/constants/nodes.tsx:290
  "flags.fcHelpInfo",
  -- pages/CPUTable/constants/nodes.tsx:299
  "clockCycleTime.label",
  -- pages/CPUTable/constants/nodes.tsx:308
  "alu.label",
  -- pages/CPUTable/constants/nodes.tsx:319
  "databus.label",
  -- pages/Coder/index.tsx:87
  "areYouSure",
  -- pages/Coder/index.tsx:88
  "words.yes",
  -- pages/Coder/index.tsx:89
  "words.no",
  -- pages/Coder/index.tsx:63
  "openEditor",
  -- pages/Coder/index.tsx:92
  "words.cancel",
  -- pages/Coder/index.tsx:99
  "words.save",
  -- pages/Coder/components/CodeEditor.tsx:201
  "setPCTo",
  -- pages/Coder/components/CodeEditor.tsx:208
  "howToUseLabels.title",
  -- pages/Coder/components/CodeEditor.tsx:209
  "howToUseLabels.description.1",
  -- pages/Coder/components/CodeEditor.tsx:215
  "howToUseLabels.description.2",
  -- pages/Coder/components/CodeEditor.tsx:217
  "howToUseLabels.description.3",
  -- pages/Coder/components/CodeEditor.tsx:256
  "appendedFin",
  -- pages/Coder/components/CodeEditor.tsx:263
  "words.examples",
  -- pages/Coder/components/CodeEditor.tsx:192
  "pcSetted.title",
  -- pages/Coder/components/CodeEditor.tsx:193
  "pcSetted.description",
  -- pages/Coder/components/CodeEditor.tsx:132
  "downloadingCode"]

end Mpp.Front
