import json
M=[]
def m(d,old,new,edit,br,file="Model/CallbackObjs.lean"): M.append(dict(file=file,**{"def":d,"old":old,"new":new,"edit":edit,"breaks":br}))
m("Chain.handlerTgt","| .int n => .result n","| .int n => .result (n + 1)","handler number off by one","C89: another callback result")
m("Chain.handlerTgt","| .obj o _ => .obj o","| .obj o r => .obj (r.getD o)","handler object replaced by its ref id","C89: another object answers")
m("Chain.fieldSwitch","((p.1 : Int), (p.1 : Int), p.2)","((p.1 : Int), (p.1 : Int) + 1, p.2)","ranges one too long","C89: the next callback number is caught too")
m("Chain.fieldSwitch","((p.1 : Int), (p.1 : Int), p.2)","((p.1 : Int) - 1, (p.1 : Int), p.2)","ranges begin one too low","C89: the callback number below is caught too")
m("Chain.fieldSwitch","code := [.var code]","code := [.expr 0 (.var code) (.value 1)]","switch value off by one","C89: other callbacks are answered")
m("Chain.fieldSwitch","default := default }","default := .result 0 }","default of the switches lost","C89: nothing is drawn for callbacks that are not registered")
m("Chain.NodeAt",'fieldSwitch "extra_callback_info1_byte"','fieldSwitch "current_callback"',"properties switch asks the callback number","C89: properties are not told apart")
m("Chain.TreeAt",'fieldSwitch "current_callback"','fieldSwitch "extra_callback_info1_byte"',"callback switch asks the argument","C89: callbacks are not told apart")
m("Chain.NodeAt","(ranges.map fun p => (p.1, handlerTgt p.2)) (handlerTgt d)","(ranges.map fun p => (p.1, handlerTgt d)) (handlerTgt d)","all properties answered with the default","C89: property handlers are lost")
m("Chain.NodeAt","(ranges.map fun p => (p.1, handlerTgt p.2)) (handlerTgt d)","((ranges.drop 1).map fun p => (p.1, handlerTgt p.2)) (handlerTgt d)","first property dropped","C89: the first property is answered with the default")
m("Chain.TreeAt","fun p q => p.1 = q.1 ∧ NodeAt O q.2 p.2","fun p q => p.1 + 1 = q.1 ∧ NodeAt O q.2 p.2","callback numbers shifted","C89: another callback gets the handler")
m("Chain.ItemAt","q.1 = (p.1 : Int) ∧ TreeAt","q.1 = (p.1 : Int) - 1 ∧ TreeAt","purchase list entry under 254","C89: the purchase list uses the map's answers")
m("Chain.ItemAt","O r = .map f [id] maps d","O r = .map f [id + 1] maps d","map of the next item","C89: the handlers answer for another item")
m("Chain.varTable","(vaVars g).lookup n","(vaVars (g + 1)).lookup n","variables of another feature","C89: the switches read other variables (or cannot be written)")
m("Callbacks.makeSwitch","| none => gcb.dflt | some x => some x","| none => none | some x => some x","purchase switch without graphics by default","C89: no graphics in the purchase list","Model/Callbacks.lean")
m("Callbacks.makeSwitches","(some (.props (mergeDict d p) default), some","(some (.props d default), some","map handlers only when not separated","C89/C42: a property with the same handler of class purchase","Model/Callbacks.lean")
m("Callbacks.start","[(0x36, x)]","[(0x32, x)]","property switch under the wrong callback","C89: properties are not answered","Model/Callbacks.lean")
json.dump(M,open('/tmp/gen/m17.json','w'),indent=1)
