import json
L=[]
def m(prop,file,d,old,new,claim,**k):
    L.append(dict(id='m20-%02d'%(len(L)+1),prop=prop,file='Verif/'+file,**{'def':d},old=old,new=new,claim=claim,inDef=True,**k))
F='Plot/Smooth.lean'
m('C69',F,'hexVal',"'A' ≤ c","'A' < c",'the digit A is refused')
m('C69',F,'hexVal',"'a' ≤ c","'a' < c",'the digit a is refused')
m('C69',F,'hexVal',"c.toNat - 55","c.toNat - 54",'capital digits are one too large')
m('C69',F,'isBlank',"c = '\\n'","c ≠ '\\n'",'almost anything is a blank')
m('C69',F,'pyHex2',"16 * a + b","10 * a + b",'decimal digits')
m('C69',F,'pyHex2',"some (-b)","some b",'sign ignored')
m('C77','Infer/Resample.lean','truncInt','if 0 ≤ q','if 1 ≤ q','seeds between zero and one are rounded up')
m('C77','Infer/Resample.lean','truncInt','else ⌈q⌉','else ⌊q⌋','negative seeds are rounded away from zero')
json.dump(L,open('/tmp/mut/m20.json','w'))
