import json
L=[]
def m(prop,file,d,old,new,claim,**k):
    L.append(dict(id='m19-%02d'%(len(L)+1),prop=prop,file='Verif/'+file,**{'def':d},old=old,new=new,claim=claim,inDef=True,**k))
F='Util/ReplaceStr.lean'
m('C161',F,'Val.same','| .other a, .other b => a == b','| .other a, .other b => a != b','different objects are the same key')
m('C161',F,'sameList','x.same y && sameList xs ys','x.same y || sameList xs ys','tuples with a common element are the same key')
m('C161',F,'sameEntries','| _, _ => false','| _, _ => true','dictionaries of different sizes are the same')
m('C161',F,'setEntry','(l, v) :: es else','(l, w) :: es else','a later value for the same key is dropped')
m('C154','Grouping/FloatGv.lean','gvInf','if b ≤ n','if b < n','the sign of zero excess')
m('C154','Grouping/FloatGv.lean','gvInf','then ⊤ else ⊥','then ⊤ else ⊤','no sign of an infinite significance')
m('C154','Grouping/FloatGv.lean','fallsE','| none => false','| none => true','a last channel of undefined significance is joined to the group before')
json.dump(L,open('/tmp/mut/m19.json','w'))
